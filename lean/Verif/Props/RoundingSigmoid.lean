import Verif.Props.RoundingNet
import Mathlib.Analysis.SpecialFunctions.Sigmoid
import Mathlib.Analysis.Calculus.MeanValue

/-
C98, continued: the computed sigmoid is accurate if the exponential function is.
-/

namespace CN24.RoundingNet
open CN24 CN24.Rounding CN24.Counting CN24.NetEval CN24.Props

theorem cast_near {a b c : ℚ} (h : |a - b| ≤ c) : |(a : ℝ) - b| ≤ c := by
  exact_mod_cast h

/-- Close exponentials give close quotients. -/
theorem inv_close {a e η τ : ℝ} (ha : 0 ≤ a) (he : 0 < e) (hη : 0 ≤ η) (hτ : 0 ≤ τ) (h : |a - e| ≤ η * e + τ) :
    |1 / (1 + a) - 1 / (1 + e)| ≤ η + τ := by
  have h1 : (0 : ℝ) < 1 + a := by linarith
  have h2 : (0 : ℝ) < 1 + e := by linarith
  have : 1 / (1 + a) - 1 / (1 + e) = (e - a) / ((1 + a) * (1 + e)) := by field_simp; ring
  rw [this, abs_div, abs_sub_comm, abs_of_pos (mul_pos h1 h2), div_le_iff₀ (mul_pos h1 h2)]
  have k1 : (η + τ) * (1 * (1 + e)) ≤ (η + τ) * ((1 + a) * (1 + e)) :=
    mul_le_mul_of_nonneg_left (mul_le_mul_of_nonneg_right (by linarith) h2.le) (by linarith)
  have k2 := mul_nonneg hτ he.le
  linarith

/-- The slope of the sigmoid. -/
theorem slope_le (t : ℝ) : |Real.sigmoid t * (1 - Real.sigmoid t)| ≤ 1 / 4 ∧ |Real.sigmoid t * (1 - Real.sigmoid t)| * |t| ≤ 1 := by
  have h0 := Real.sigmoid_pos t
  have h1 := Real.sigmoid_lt_one t
  have hp : 0 < Real.sigmoid t * (1 - Real.sigmoid t) := mul_pos h0 (by linarith)
  rw [abs_of_pos hp]
  refine ⟨by nlinarith [sq_nonneg (Real.sigmoid t - 1 / 2)], ?_⟩
  have key (s : ℝ) (hs : 0 ≤ s) : Real.sigmoid (-s) * s ≤ 1 := by
    rw [Real.sigmoid_def, neg_neg, inv_mul_le_iff₀ (by positivity)]
    have := Real.add_one_le_exp s
    linarith
  rcases le_total 0 t with h | h
  · rw [abs_of_nonneg h, ← Real.sigmoid_neg]
    have k := key t h
    have k0 := mul_nonneg (Real.sigmoid_pos (-t)).le h
    nlinarith
  · rw [abs_of_nonpos h]
    have k := key (-t) (by linarith)
    rw [neg_neg] at k
    have k0 := mul_nonneg h0.le (neg_nonneg.2 h)
    nlinarith

/-- The sigmoid makes differences four times smaller. -/
theorem sigmoid_lipschitz (s t : ℝ) : |Real.sigmoid s - Real.sigmoid t| ≤ 1 / 4 * |s - t| := by
  have h := Convex.norm_image_sub_le_of_norm_deriv_le (f := Real.sigmoid) (s := Set.univ) (x := t) (y := s) (C := 1 / 4)
    (fun x _ => differentiableAt_sigmoid) (fun x _ => by
      rw [Real.deriv_sigmoid, Real.norm_eq_abs]
      exact (slope_le x).1) convex_univ (Set.mem_univ _) (Set.mem_univ _)
  simpa [Real.norm_eq_abs] using h

/-- The sigmoid is insensitive to a small relative error of its argument, however large the argument. -/
theorem sigmoid_relative {a w : ℝ} (h : |w - a| ≤ 1 / 2 ^ 24 * |a| + 1 / 2 ^ 150) : |Real.sigmoid w - Real.sigmoid a| ≤ 3 / 2 ^ 24 := by
  rcases le_total |a| 1 with h1 | h1
  · refine (sigmoid_lipschitz w a).trans ?_
    norm_num at h ⊢
    linarith
  · have hu : |w - a| ≤ 2 / 2 ^ 24 * |a| := by
      norm_num at h ⊢
      linarith
    have hx : 0 < (1 - 2 / 2 ^ 24) * |a| := mul_pos (by norm_num) (by linarith)
    have k := Convex.norm_image_sub_le_of_norm_deriv_le (f := Real.sigmoid) (s := Set.uIcc a w) (x := a) (y := w)
      (C := 1 / ((1 - 2 / 2 ^ 24) * |a|)) (fun x _ => differentiableAt_sigmoid) (fun x hmem => by
        rw [Real.deriv_sigmoid, Real.norm_eq_abs, le_div_iff₀ hx]
        refine le_trans (mul_le_mul_of_nonneg_left ?_ (abs_nonneg _)) (slope_le x).2
        have d1 : |x - a| ≤ |w - a| := Set.abs_sub_left_of_mem_uIcc hmem
        have d2 := abs_sub_abs_le_abs_sub a x
        rw [abs_sub_comm] at d2
        linarith) (convex_uIcc a w) Set.left_mem_uIcc Set.right_mem_uIcc
    rw [Real.norm_eq_abs, Real.norm_eq_abs, one_div_mul_eq_div, le_div_iff₀' hx] at k
    have ha : (0 : ℝ) < |a| := by linarith
    have k2 : (1 - 2 / 2 ^ 24) * |Real.sigmoid w - Real.sigmoid a| ≤ 2 / 2 ^ 24 := by
      refine le_of_mul_le_mul_right ?_ ha
      linarith
    norm_num at k2 ⊢
    linarith

/-- A number divided by one more than the exponential: two roundings. -/
theorem quotient_close (n a D : Single) (hn : 0 ≤ n.units) (ha : 0 ≤ a.value) (h1 : |D.value - (1 + a.value)| ≤ 1 / 2 ^ 24 * (1 + a.value)) :
    |(n / D).value - n.value / (1 + a.value)| ≤ 5 / 2 ^ 25 * n.value + 1 / 2 ^ 150 := by
  have hA : (0 : ℚ) < 1 + a.value := by linarith
  have hlo : (1 - 1 / 2 ^ 24) * (1 + a.value) ≤ D.value := by
    have := (abs_le.1 h1).1
    linarith
  have hlo' : 1 - 1 / 2 ^ 24 ≤ D.value := by
    refine le_trans ?_ hlo
    norm_num at *
    linarith
  have hDpos : 0 < D.value := lt_of_lt_of_le (by norm_num) hlo'
  have hn' : 0 ≤ n.value := div_nonneg (by exact_mod_cast hn) (by positivity)
  have hDu : 0 < D.units := by
    by_contra hneg
    have : (D.units : ℚ) ≤ 0 := by exact_mod_cast not_lt.1 hneg
    have : (D.units : ℚ) / 2 ^ 149 ≤ 0 := div_nonpos_of_nonpos_of_nonneg this (by positivity)
    exact absurd hDpos (not_lt.2 this)
  have h2 := div_err (by decide) n D hn hDu
  have hinv : n.value / D.value ≤ n.value / (1 - 1 / 2 ^ 24) := div_le_div_of_nonneg_left hn' (by norm_num) hlo'
  have h3 : |n.value / D.value - n.value / (1 + a.value)| ≤ 1 / 2 ^ 24 * (n.value / D.value) := by
    have : n.value / D.value - n.value / (1 + a.value) = n.value * -(D.value - (1 + a.value)) / (D.value * (1 + a.value)) := by
      field_simp
      ring
    rw [this, abs_div, abs_mul, abs_neg, abs_of_pos (mul_pos hDpos hA), abs_of_nonneg hn', div_le_iff₀ (mul_pos hDpos hA)]
    refine (mul_le_mul_of_nonneg_left h1 hn').trans (le_of_eq ?_)
    field_simp
  have h4 := abs_sub_le (n / D).value (n.value / D.value) (n.value / (1 + a.value))
  norm_num at h2 h3 hinv h4 ⊢
  linarith

/-- `exp` in single precision has the relative error `η` (and one unit of the smallest number, for results that are close to zero). -/
def ExpWithin (exp : Single → Single) (η : ℝ) : Prop :=
  ∀ v, 0 ≤ (exp v).value ∧ |((exp v).value : ℝ) - Real.exp v.value| ≤ η * Real.exp v.value + 1 / 2 ^ 149

/-- A rational function that approximates the exponential function with the relative error `κ`. -/
def Approximates (exp : ℚ → ℚ) (κ : ℝ) : Prop := ∀ x, 0 ≤ exp x ∧ |(exp x : ℝ) - Real.exp x| ≤ κ * Real.exp x

theorem sigmoid_close {expF : Single → Single} {exp : ℚ → ℚ} {η κ : ℝ} (hη : 0 ≤ η) (hκ : 0 ≤ κ) (hF : ExpWithin expF η)
    (hE : Approximates exp κ) (v : Single) (x : ℚ) :
    |((Activations.sigmoid expF v).value : ℝ) - ((Activations.sigmoid exp x : ℚ) : ℝ)| ≤ |(v.value : ℝ) - x| + (η + κ + 1 / 2 ^ 22) := by
  obtain ⟨f0, f1⟩ := hF (-v)
  obtain ⟨e0, e1⟩ := hE (-x)
  have hneg : (-v).value = -v.value := by
    show ((-v.units : Int) : ℚ) / 2 ^ 149 = -((v.units : ℚ) / 2 ^ 149)
    push_cast
    ring
  rw [hneg] at f1
  have q := Flt.add_err (p := 24) (e := 149) (by decide) 1 (expF (-v))
  rw [single_one_value, abs_of_pos (by linarith : (0 : ℚ) < 1 + (expF (-v)).value)] at q
  have q := quotient_close 1 (expF (-v)) (1 + expF (-v)) (by decide) f0 q
  rw [single_one_value] at q
  have q' : |((Activations.sigmoid expF v).value : ℝ) - 1 / (1 + ((expF (-v)).value : ℝ))| ≤ 5 / 2 ^ 25 * 1 + 1 / 2 ^ 150 := by
    have := cast_near q
    push_cast at this
    exact this
  have a1 := inv_close (Rat.cast_nonneg.2 f0) (Real.exp_pos _) hη (by positivity) f1
  have a2 := inv_close (Rat.cast_nonneg.2 e0) (Real.exp_pos _) hκ (le_refl 0) (by rw [add_zero]; exact e1)
  have l := sigmoid_lipschitz v.value x
  rw [Real.sigmoid_def, Real.sigmoid_def, ← one_div, ← one_div] at l
  have hx : ((Activations.sigmoid exp x : ℚ) : ℝ) = 1 / (1 + (exp (-x) : ℝ)) := by
    have : Activations.sigmoid exp x = 1 / (1 + exp (-x)) := rfl
    rw [this]
    push_cast
    rfl
  rw [hx]
  push_cast at a1 a2
  have n0 := abs_nonneg ((v.value : ℝ) - x)
  have s1 := abs_sub_le ((Activations.sigmoid expF v).value : ℝ) (1 / (1 + ((expF (-v)).value : ℝ))) (1 / (1 + (exp (-x) : ℝ)))
  have s2 := abs_sub_le (1 / (1 + ((expF (-v)).value : ℝ))) (1 / (1 + Real.exp (-(v.value : ℝ)))) (1 / (1 + (exp (-x) : ℝ)))
  have s3 := abs_sub_le (1 / (1 + Real.exp (-(v.value : ℝ)))) (1 / (1 + Real.exp (-(x : ℝ)))) (1 / (1 + (exp (-x) : ℝ)))
  rw [abs_sub_comm (1 / (1 + Real.exp (-(x : ℝ))))] at s3
  have t : (5 : ℝ) / 2 ^ 25 * 1 + 1 / 2 ^ 150 + 1 / 2 ^ 149 ≤ 1 / 2 ^ 22 := by norm_num
  linarith

theorem two_value : ((2 : Nat) : Single).value = 2 := by
  decide +kernel

theorem tanh_close {expF : Single → Single} {exp : ℚ → ℚ} {η κ : ℝ} (hη : 0 ≤ η) (hκ : 0 ≤ κ) (hF : ExpWithin expF η)
    (hE : Approximates exp κ) (v : Single) (x : ℚ) :
    |((Activations.tanh expF v).value : ℝ) - ((Activations.tanh exp x : ℚ) : ℝ)| ≤ |(v.value : ℝ) - x| + (2 * η + 2 * κ + 1 / 2 ^ 20) := by
  have hw := Flt.mul_err (p := 24) (e := 149) (by decide) ((2 : Nat) : Single) v
  rw [two_value] at hw
  generalize hwv : ((2 : Nat) : Single) * v = w at hw
  have htanh : Activations.tanh expF v = 1 - ((2 : Nat) : Single) / (expF w + 1) := by rw [← hwv]; rfl
  obtain ⟨f0, f1⟩ := hF w
  obtain ⟨e0, e1⟩ := hE (2 * x)
  have q := Flt.add_err (p := 24) (e := 149) (by decide) (expF w) 1
  rw [single_one_value, add_comm (expF w).value, abs_of_pos (by linarith : (0 : ℚ) < 1 + (expF w).value)] at q
  have q := quotient_close ((2 : Nat) : Single) (expF w) (expF w + 1) (by decide +kernel) f0 q
  have r := Flt.sub_err (p := 24) (e := 149) (by decide) 1 (((2 : Nat) : Single) / (expF w + 1))
  rw [← htanh, single_one_value] at r
  rw [two_value] at q
  generalize (((2 : Nat) : Single) / (expF w + 1)).value = Q at q r
  have hA : (0 : ℚ) < 1 + (expF w).value := by linarith
  have b0 : 0 ≤ 2 / (1 + (expF w).value) := by positivity
  have b1 : 2 / (1 + (expF w).value) ≤ 2 := by rw [div_le_iff₀ hA]; linarith
  have r' : |(Activations.tanh expF v).value - (1 - 2 / (1 + (expF w).value))| ≤ 8 / 2 ^ 24 := by
    unfold Flt.ulp at r
    have q1 := abs_le.1 q
    have : |1 - Q| ≤ 2 := by
      rw [abs_le]
      norm_num at q1 ⊢
      constructor <;> linarith
    have s := abs_sub_le (Activations.tanh expF v).value (1 - Q) (1 - 2 / (1 + (expF w).value))
    have : (1 - Q) - (1 - 2 / (1 + (expF w).value)) = -(Q - 2 / (1 + (expF w).value)) := by ring
    rw [this, abs_neg] at s
    norm_num at *
    linarith
  have r2 : |((Activations.tanh expF v).value : ℝ) - (1 - 2 / (1 + ((expF w).value : ℝ)))| ≤ 8 / 2 ^ 24 := by
    have := cast_near r'
    push_cast at this
    exact this
  have a1 := inv_close (Rat.cast_nonneg.2 f0) (Real.exp_pos _) hη (by positivity) f1
  have a2 := inv_close (Rat.cast_nonneg.2 e0) (Real.exp_pos _) hκ (le_refl 0) (by rw [add_zero]; exact e1)
  have hw' : |(w.value : ℝ) - 2 * v.value| ≤ 1 / 2 ^ 24 * |2 * (v.value : ℝ)| + 1 / 2 ^ 150 := by
    unfold Flt.ulp Flt.tiny at hw
    have := cast_near hw
    push_cast at this
    exact this
  have w1 : |1 / (1 + Real.exp w.value) - 1 / (1 + Real.exp (2 * v.value))| ≤ 3 / 2 ^ 24 := by
    have := sigmoid_relative (a := -(2 * (v.value : ℝ))) (w := -(w.value : ℝ)) (by
      rw [abs_neg, show -(w.value : ℝ) - -(2 * (v.value : ℝ)) = -((w.value : ℝ) - 2 * v.value) by ring, abs_neg]
      exact hw')
    simpa [Real.sigmoid_def] using this
  have l : |1 / (1 + Real.exp (2 * v.value)) - 1 / (1 + Real.exp (2 * x))| ≤ 1 / 2 * |(v.value : ℝ) - x| := by
    have := sigmoid_lipschitz (-(2 * (v.value : ℝ))) (-(2 * (x : ℝ)))
    rw [show -(2 * (v.value : ℝ)) - -(2 * (x : ℝ)) = -(2 * ((v.value : ℝ) - x)) by ring, abs_neg, abs_mul, abs_two] at this
    simp only [Real.sigmoid_def, neg_neg, ← one_div] at this
    linarith
  have hx : ((Activations.tanh exp x : ℚ) : ℝ) = 1 - 2 / (1 + (exp (2 * x) : ℝ)) := by
    have : Activations.tanh exp x = 1 - 2 / (exp (2 * x) + 1) := rfl
    rw [this, add_comm (exp (2 * x))]
    push_cast
    rfl
  rw [hx]
  push_cast at a2
  generalize (1 : ℝ) / (1 + Real.exp w.value) = p2 at *
  generalize (1 : ℝ) / (1 + Real.exp (2 * v.value)) = p3 at *
  generalize (1 : ℝ) / (1 + Real.exp (2 * x)) = p4 at *
  rw [div_eq_mul_one_div (2 : ℝ)] at r2 ⊢
  generalize (1 : ℝ) / (1 + ((expF w).value : ℝ)) = p1 at *
  generalize (1 : ℝ) / (1 + (exp (2 * x) : ℝ)) = p5 at *
  generalize |(v.value : ℝ) - x| = dv at *
  rw [abs_le] at *
  norm_num at *
  constructor <;> linarith

/-- C98, the hypothesis on the smooth activations discharged.  If the single precision exponential function has the relative error `η`, then the
computed sigmoid and tanh are accurate in the sense `C98_chain` and `C98_network_partial` ask for: they differ from the exact functions at
an exact argument by the difference of the arguments plus `2η + 2κ + 2^-20`, where `κ` is the relative error of the rational stand-in for the
exponential function (as small as one likes, `exists_approximation`).  (As everywhere in the model of single precision, results beyond the largest
number are not modelled.) -/
theorem C98_accurate (env : Env Single) (exp : ℚ → ℚ) (η κ δ : ℚ) (hη : 0 ≤ η) (hκ : 0 ≤ κ) (hF : ExpWithin env.exp η)
    (hE : Approximates exp κ) (hδ : 2 * η + 2 * κ + 1 / 2 ^ 20 ≤ δ) : Accurate env exp δ := by
  have hη' : (0 : ℝ) ≤ η := by exact_mod_cast hη
  have hκ' : (0 : ℝ) ≤ κ := by exact_mod_cast hκ
  refine ⟨fun v x => ?_, fun v x => ?_, fun x => ?_, fun x => ?_⟩
  · have h := sigmoid_close hη' hκ' hF hE v x
    have h : |(Activations.sigmoid env.exp v).value - Activations.sigmoid exp x| ≤ |v.value - x| + (η + κ + 1 / 2 ^ 22) := by
      have e : (|(v.value : ℝ) - (x : ℝ)| + (η + κ + 1 / 2 ^ 22) : ℝ) = ((|v.value - x| + (η + κ + 1 / 2 ^ 22) : ℚ) : ℝ) := by
        push_cast
        rfl
      rw [e] at h
      exact_mod_cast h
    norm_num at *
    linarith
  · have h := tanh_close hη' hκ' hF hE v x
    have h : |(Activations.tanh env.exp v).value - Activations.tanh exp x| ≤ |v.value - x| + (2 * η + 2 * κ + 1 / 2 ^ 20) := by
      have e : (|(v.value : ℝ) - (x : ℝ)| + (2 * η + 2 * κ + 1 / 2 ^ 20) : ℝ) = ((|v.value - x| + (2 * η + 2 * κ + 1 / 2 ^ 20) : ℚ) : ℝ) := by
        push_cast
        rfl
      rw [e] at h
      exact_mod_cast h
    linarith
  · have h0 := (hE (-x)).1
    unfold Activations.sigmoid
    have hA : (0 : ℚ) < 1 + exp (-x) := by linarith
    rw [abs_of_pos (by positivity), div_le_iff₀ hA]
    linarith
  · have h0 := (hE (2 * x)).1
    have hA : (0 : ℚ) < exp (2 * x) + 1 := by linarith
    have e : Activations.tanh exp x = 1 - 2 / (exp (2 * x) + 1) := rfl
    have b0 : 0 ≤ 2 / (exp (2 * x) + 1) := by positivity
    have b1 : 2 / (exp (2 * x) + 1) ≤ 2 := by rw [div_le_iff₀ hA]; linarith
    rw [e, abs_le]
    constructor <;> linarith

/-- There are rational functions as close to the exponential function as one likes. -/
theorem exists_approximation {κ : ℝ} (hκ : 0 < κ) : ∃ exp, Approximates exp κ := by
  have h (x : ℚ) : ∃ q : ℚ, Real.exp x < q ∧ (q : ℝ) < Real.exp x + κ * Real.exp x :=
    exists_rat_btwn (by have := mul_pos hκ (Real.exp_pos x); linarith)
  choose f hf using h
  refine ⟨f, fun x => ⟨?_, ?_⟩⟩
  · have := (Real.exp_pos x).trans (hf x).1
    exact_mod_cast this.le
  · rw [abs_of_nonneg (by linarith [(hf x).1])]
    linarith [(hf x).2]

/-- There is a function on single precision numbers that is as accurate as asked for: the exponential function rounded down. -/
theorem exists_expWithin : ∃ exp, ExpWithin exp 0 := by
  have he (v : Single) : 0 ≤ Real.exp v.value * 2 ^ 149 := by positivity
  refine ⟨fun v => ⟨⌊Real.exp v.value * 2 ^ 149⌋⟩, fun v => ⟨?_, ?_⟩⟩
  · exact div_nonneg (by exact_mod_cast Int.floor_nonneg.2 (he v)) (by positivity)
  · have h1 := Int.floor_le (Real.exp v.value * 2 ^ 149)
    have h2 := Int.lt_floor_add_one (Real.exp v.value * 2 ^ 149)
    have e : (((⟨⌊Real.exp v.value * 2 ^ 149⌋⟩ : Single).value : ℚ) : ℝ) = (⌊Real.exp v.value * 2 ^ 149⌋ : ℝ) / 2 ^ 149 := by
      unfold Flt.value
      push_cast
      rfl
    rw [e, zero_mul, zero_add, abs_le]
    generalize (⌊Real.exp v.value * 2 ^ 149⌋ : ℝ) = z at *
    generalize Real.exp v.value = y at *
    have hp : (0 : ℝ) < 2 ^ 149 := by positivity
    constructor
    · rw [neg_le_sub_iff_le_add, ← add_div, le_div_iff₀ hp]
      linarith
    · have : z / 2 ^ 149 ≤ y := by rw [div_le_iff₀ hp]; linarith
      have : (0 : ℝ) ≤ 1 / 2 ^ 149 := by positivity
      linarith

/-- Non-vacuity: there are an environment and a rational function that are accurate up to `2^-19`. -/
example : ∃ env exp, Accurate env exp (1 / 2 ^ 19) := by
  obtain ⟨f, hf⟩ := exists_expWithin
  obtain ⟨g, hg⟩ := exists_approximation (κ := ((1 / 2 ^ 23 : ℚ) : ℝ)) (by positivity)
  exact ⟨{ singleEnv with exp := f }, g, C98_accurate _ g 0 (1 / 2 ^ 23) _ (le_refl _) (by norm_num) (by rw [Rat.cast_zero]; exact hf) hg
    (by norm_num)⟩

/-! A network with two classes: a pixel of value 3 has the scores of 3 and of -3. -/

def pairItems : List NetConfig.Item := [.patches, .full 2]

def pairEnv (exp : Single → Single) : Env Single :=
  ⟨exp, ⟨-((2 ^ 24 - 1) * 2 ^ (104 + 149))⟩, fun _ => ⟨⟨2, 1, 1, 1, [1, -1]⟩, ⟨1, 2, 1, 1, [0, 0]⟩⟩⟩

theorem pair_weights (f : Single → Single) : ∀ om < 2, weightSum ⟨2, 1, 1, 1, 1, 0, 0, 1⟩ 1 (valueTensor ((pairEnv f).parameters 0).weights) om ≤ 1 := by
  show ∀ om < 2, weightSum ⟨2, 1, 1, 1, 1, 0, 0, 1⟩ 1 (valueTensor ⟨2, 1, 1, 1, [1, -1]⟩) om ≤ 1
  decide +kernel

theorem pair_bias (f : Single → Single) : ∀ om < 2, |(((pairEnv f).parameters 0).bias.val om 0 0 0).value| ≤ 0 := by
  show ∀ om < 2, |((⟨1, 2, 1, 1, [0, 0]⟩ : Tensor Single).val om 0 0 0).value| ≤ 0
  decide +kernel

theorem pairItems_ok : ∀ i ∈ pairItems, i.Ok := by
  intro i hi
  simp only [pairItems, List.mem_cons, List.not_mem_nil, or_false] at hi
  rcases hi with rfl | rfl <;> simp [NetConfig.Item.Ok, NetConfig.Item.geo, NetConfig.Geo.Ok]

/-- Non-vacuity of `C98_network_decision_partial`: with accurate exponential functions the class of that pixel is the first in both. -/
example : ∃ (env : Env Single) (exp : ℚ → ℚ), ∀ conv conv' mode, ∃ u y,
    predict env conv (NetConfig.linesOf (descriptionText pairItems)) false mode 2 [⟨1, 1, 1, 1, [⟨3 * 2 ^ 149⟩]⟩] = .done u ∧
    predict (exactEnv env exp) conv' (NetConfig.linesOf (descriptionText pairItems)) false ⟨true, 7⟩ 2 [⟨1, 1, 1, 1, [3]⟩] = .done y ∧
    u.pixelMaximum env.lowest 0 0 0 = some 0 ∧ y.pixelMaximum env.lowest.value 0 0 0 = some 0 := by
  obtain ⟨f, hf⟩ := exists_expWithin
  obtain ⟨g, hg⟩ := exists_approximation (κ := ((1 / 2 ^ 23 : ℚ) : ℝ)) (by positivity)
  have ha : Accurate (pairEnv f) g (1 / 2 ^ 19) := C98_accurate _ g 0 (1 / 2 ^ 23) _ (le_refl _) (by norm_num)
    (by rw [Rat.cast_zero]; exact hf) hg (by norm_num)
  refine ⟨pairEnv f, g, fun conv conv' mode => ?_⟩
  obtain ⟨-, hc⟩ := factories pairItems pairItems_ok (by decide +kernel) (by decide +kernel) (by decide +kernel) (by decide +kernel)
  have hp : netPlain ⟨.fcn, (NetConfig.field (NetConfig.geoX pairItems) : Nat), (NetConfig.field (NetConfig.geoY pairItems) : Nat),
      (NetConfig.total (NetConfig.geoX pairItems) : Nat), (NetConfig.total (NetConfig.geoY pairItems) : Nat), false⟩ 2 pairItems =
      [.conv ⟨2, 1, 1, 1, 1, 0, 0, 1⟩ 0, .sigmoid] := by rfl
  have hrun : ∃ c, Runs (pairEnv f) (fun _ => 1) (fun _ => 0) (1 / 2 ^ 19) [.conv ⟨2, 1, 1, 1, 1, 0, 0, 1⟩ 0, .sigmoid]
      ⟨1, 1, 1, 1⟩ ⟨3, 0⟩ ⟨1, 1, 1, 2⟩ c ∧ c.error ≤ 1 / 2 ^ 10 ∧ c.size = 1 := by
    refine ⟨_, ⟨⟨by decide, by decide, ⟨rfl, rfl, rfl, rfl, rfl⟩, ⟨rfl, rfl, rfl, rfl, rfl⟩, by decide,
      by decide +kernel, by decide +kernel, pair_weights f, pair_bias f⟩, ⟨1, 1, 1, 2⟩, rfl, trivial, _, rfl, rfl, rfl⟩,
      by decide +kernel, rfl⟩
  obtain ⟨c, hrun, hce, hcs⟩ := hrun
  have hclose : Close ⟨1, 1, 1, 1⟩ ⟨3, 0⟩ (⟨1, 1, 1, 1, [⟨3 * 2 ^ 149⟩]⟩ : Tensor Single) ⟨1, 1, 1, 1, [3]⟩ := by
    refine ⟨⟨rfl, rfl, rfl, rfl, rfl⟩, ⟨rfl, rfl, rfl, rfl, rfl⟩, by norm_num, le_refl _, ?_, ?_⟩
    all_goals
      rintro i j m k ⟨i1, i2, i3, i4⟩
      dsimp only at i1 i2 i3 i4
      obtain rfl : i = 0 := by omega
      obtain rfl : j = 0 := by omega
      obtain rfl : m = 0 := by omega
      obtain rfl : k = 0 := by omega
      decide +kernel
  obtain ⟨u, y, h1, h2, h3⟩ := C98_network_decision_partial (pairEnv f) g conv conv' pairItems false mode ⟨true, 7⟩ 2 _ pairItems_ok
    (by decide +kernel) hc _ _ _ (by norm_num) ha _ _ _ c (hp ▸ hrun) _ _ hclose (pairEnv f).lowest (by
      have : (1 : ℚ) + 1 / 2 ^ 10 < -(pairEnv f).lowest.value := by
        show (1 : ℚ) + 1 / 2 ^ 10 < -(⟨-((2 ^ 24 - 1) * 2 ^ (104 + 149))⟩ : Single).value
        decide +kernel
      linarith)
  refine ⟨u, y, h1, h2, h3 0 0 0 0 (by decide) (by decide) (by decide) (by decide) ?_⟩
  have hy : evalAll (exactEnv (pairEnv f) g) ⟨true, 7⟩ (netPlain ⟨.fcn, (NetConfig.field (NetConfig.geoX pairItems) : Nat), (NetConfig.field (NetConfig.geoY pairItems) : Nat),
      (NetConfig.total (NetConfig.geoX pairItems) : Nat), (NetConfig.total (NetConfig.geoY pairItems) : Nat), false⟩ 2 pairItems |>.map Plain.layer)
      ⟨1, 1, 1, 1, [3]⟩ = .done ⟨1, 1, 1, 2, [Activations.sigmoid g 3, Activations.sigmoid g (-3)]⟩ := by
    rw [hp]
    have e1 : eval (exactEnv (pairEnv f) g) ⟨true, 7⟩ (Plain.layer (.conv ⟨2, 1, 1, 1, 1, 0, 0, 1⟩ 0)) ⟨1, 1, 1, 1, [3]⟩ = .done ⟨1, 1, 1, 2, [3, -3]⟩ := by
      have e : eval (⟨fun _ => 0, 0, fun _ => ⟨⟨2, 1, 1, 1, [1, -1]⟩, ⟨1, 2, 1, 1, [0, 0]⟩⟩⟩ : Env ℚ) ⟨true, 7⟩
          (Plain.layer (.conv ⟨2, 1, 1, 1, 1, 0, 0, 1⟩ 0)) ⟨1, 1, 1, 1, [3]⟩ = .done ⟨1, 1, 1, 2, [3, -3]⟩ := by decide +kernel
      have hv : exactEnv (pairEnv f) g = ⟨g, (exactEnv (pairEnv f) g).lowest, fun _ => ⟨⟨2, 1, 1, 1, [1, -1]⟩, ⟨1, 2, 1, 1, [0, 0]⟩⟩⟩ := by
        have v1 : valueTensor ⟨2, 1, 1, 1, [1, -1]⟩ = ⟨2, 1, 1, 1, [1, -1]⟩ := by decide +kernel
        have v2 : valueTensor ⟨1, 2, 1, 1, [0, 0]⟩ = ⟨1, 2, 1, 1, [0, 0]⟩ := by decide +kernel
        show (⟨g, _, fun _ => ⟨valueTensor ⟨2, 1, 1, 1, [1, -1]⟩, valueTensor ⟨1, 2, 1, 1, [0, 0]⟩⟩⟩ : Env ℚ) = _
        rw [v1, v2]
        rfl
      rw [hv]
      exact e
    have e2 : eval (exactEnv (pairEnv f) g) ⟨true, 7⟩ (Plain.layer .sigmoid) ⟨1, 1, 1, 2, [3, -3]⟩ =
        .done ⟨1, 1, 1, 2, [Activations.sigmoid g 3, Activations.sigmoid g (-3)]⟩ := by
      rfl
    show (eval _ _ _ _).bind _ = _
    rw [e1]
    show (eval (exactEnv (pairEnv f) g) ⟨true, 7⟩ (Plain.layer .sigmoid) ⟨1, 1, 1, 2, [3, -3]⟩).bind _ = _
    rw [e2]
    rfl
  have h4 := predict_chain (exactEnv (pairEnv f) g) conv' pairItems false ⟨true, 7⟩ 2 _ pairItems_ok (by decide +kernel) hc _ _
    (by rw [net_plain]; exact hy)
  obtain rfl := Outcome.done.inj (h2.symm.trans h4)
  intro m' hm' hne
  dsimp only at hm'
  obtain rfl : m' = 1 := by omega
  show Activations.sigmoid g (-3) + 2 * c.error < Activations.sigmoid g 3
  have hexp : (4 : ℝ) ≤ Real.exp 3 := by
    have := Real.add_one_le_exp (3 : ℝ)
    linarith
  have g1 : (3 : ℚ) ≤ g 3 := by
    have := abs_le.1 (hg 3).2
    have h : (3 : ℝ) ≤ g 3 := by
      push_cast at this
      nlinarith [this.1]
    exact_mod_cast h
  have g2 : g (-3) ≤ 1 / 3 := by
    have := abs_le.1 (hg (-3)).2
    have e : Real.exp (((-3 : ℚ)) : ℝ) ≤ 1 / 4 := by
      push_cast
      rw [Real.exp_neg, inv_eq_one_div]
      exact one_div_le_one_div_of_le (by norm_num) hexp
    have h : ((g (-3) : ℚ) : ℝ) ≤ ((1 / 3 : ℚ) : ℝ) := by
      push_cast at this e ⊢
      nlinarith [this.2]
    exact_mod_cast h
  have g3 := (hg (-3)).1
  have s1 : Activations.sigmoid g (-3) ≤ 1 / 4 := by
    unfold Activations.sigmoid
    rw [neg_neg, div_le_iff₀ (by linarith)]
    linarith
  have s2 : 3 / 4 ≤ Activations.sigmoid g 3 := by
    unfold Activations.sigmoid
    rw [le_div_iff₀ (by linarith)]
    linarith
  norm_num at hce
  linarith

end CN24.RoundingNet
