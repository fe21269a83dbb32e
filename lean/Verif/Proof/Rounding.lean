import Verif.Proof.Counting
import Verif.Proof.Convolution
import Mathlib.Tactic.Positivity

/-
Proofs about the rounding errors of sums of products.
-/

namespace CN24
namespace Flt
variable {p e : Nat}

theorem roundShift_err (s m : Nat) : 2 * (roundShift s m * 2 ^ s) ≤ 2 * m + 2 ^ s ∧ 2 * m ≤ 2 * (roundShift s m * 2 ^ s) + 2 ^ s := by
  unfold roundShift
  dsimp only
  have h1 := Nat.div_add_mod' m (2 ^ s)
  have h2 := Nat.mod_lt m (Nat.two_pow_pos s)
  split
  · rename_i h
    rw [Nat.add_mul]
    omega
  · rename_i h
    omega

/-- The relative error of rounding to `p` bits. -/
theorem roundBits_err {p : Nat} (hp : 1 ≤ p) (m : Nat) :
    2 ^ p * roundBits p m ≤ 2 ^ p * m + m ∧ 2 ^ p * m ≤ 2 ^ p * roundBits p m + m := by
  by_cases hm : m = 0
  · subst hm; simp [roundBits, roundShift]
  have h := roundShift_err (m.log2 + 1 - p) m
  rcases Nat.lt_or_ge m.log2 p with hlt | hge
  · rw [roundBits_of_dvd (by rw [show m.log2 + 1 - p = 0 by omega]; simp)]
    omega
  · have e1 : 2 ^ p * 2 ^ (m.log2 + 1 - p) ≤ 2 * m := by
      rw [← Nat.pow_add, show p + (m.log2 + 1 - p) = m.log2 + 1 by omega, Nat.pow_succ, Nat.mul_comm]
      exact Nat.mul_le_mul_left 2 (Nat.log2_self_le hm)
    unfold roundBits
    generalize roundShift (m.log2 + 1 - p) m * 2 ^ (m.log2 + 1 - p) = r at h ⊢
    generalize 2 ^ (m.log2 + 1 - p) = t at h e1
    have h1 := Nat.mul_le_mul_left (2 ^ p) h.1
    have h2 := Nat.mul_le_mul_left (2 ^ p) h.2
    rw [Nat.mul_add, Nat.mul_left_comm, Nat.mul_left_comm (2 ^ p) 2 m] at h1
    rw [Nat.mul_add, Nat.mul_left_comm, Nat.mul_left_comm (2 ^ p) 2 r] at h2
    omega

/-- The error of rounding a product. -/
theorem roundProduct_err {p e : Nat} (hp : 1 ≤ p) (m : Nat) :
    2 ^ p * (2 * (roundProduct p e m * 2 ^ e)) ≤ 2 ^ p * (2 * m) + 2 * m + 2 ^ p * 2 ^ e ∧
      2 ^ p * (2 * m) ≤ 2 ^ p * (2 * (roundProduct p e m * 2 ^ e)) + 2 * m + 2 ^ p * 2 ^ e := by
  unfold roundProduct
  dsimp only
  generalize hs : max (m.log2 + 1 - p) e = s
  have h := roundShift_err s m
  have e0 : roundShift s m * 2 ^ (s - e) * 2 ^ e = roundShift s m * 2 ^ s := by
    rw [Nat.mul_assoc, ← Nat.pow_add]
    congr 2
    omega
  rw [e0]
  generalize roundShift s m * 2 ^ s = r at h ⊢
  have e1 : 2 ^ p * 2 ^ s ≤ 2 * m + 2 ^ p * 2 ^ e := by
    by_cases hm : m = 0
    · subst hm
      have : s = e := by
        rw [← hs, show Nat.log2 0 = 0 from rfl]
        omega
      rw [this]
      omega
    rcases Nat.le_total (m.log2 + 1 - p) e with hle | hle
    · have : s = e := by omega
      rw [this]; omega
    · have hs' : s = m.log2 + 1 - p := by omega
      rcases Nat.lt_or_ge m.log2 p with hlt | hge
      · have h0 : s = e := by omega
        rw [h0]; omega
      · have : 2 ^ p * 2 ^ s ≤ 2 * m := by
          rw [hs', ← Nat.pow_add, show p + (m.log2 + 1 - p) = m.log2 + 1 by omega, Nat.pow_succ, Nat.mul_comm]
          exact Nat.mul_le_mul_left 2 (Nat.log2_self_le hm)
        omega
  generalize 2 ^ s = t at h e1
  have h1 := Nat.mul_le_mul_left (2 ^ p) h.1
  have h2 := Nat.mul_le_mul_left (2 ^ p) h.2
  rw [Nat.mul_add] at h1 h2
  omega

/-- Half the distance from one to the next number. -/
def ulp (p : Nat) : ℚ := 1 / 2 ^ p

/-- Half of the smallest number. -/
def tiny (e : Nat) : ℚ := 1 / 2 ^ (e + 1)

theorem ulp_pos (p : Nat) : 0 < ulp p := by unfold ulp; positivity
theorem tiny_pos (e : Nat) : 0 < tiny e := by unfold tiny; positivity

theorem roundBits_err_rat {p : Nat} (hp : 1 ≤ p) (m : Nat) : |(roundBits p m : ℚ) - m| ≤ ulp p * m := by
  obtain ⟨h1, h2⟩ := roundBits_err hp m
  have h1' : (2 ^ p * (roundBits p m : ℚ)) ≤ 2 ^ p * m + m := by exact_mod_cast h1
  have h2' : (2 ^ p * (m : ℚ)) ≤ 2 ^ p * (roundBits p m) + m := by exact_mod_cast h2
  unfold ulp
  rw [one_div, ← div_eq_inv_mul, abs_le]
  have hpos : (0 : ℚ) < 2 ^ p := by positivity
  constructor
  · rw [neg_le, div_eq_mul_inv, ← div_eq_mul_inv, le_div_iff₀ hpos]; linarith
  · rw [le_div_iff₀ hpos]; linarith

theorem roundInt_err {p : Nat} (hp : 1 ≤ p) (i : Int) : |(roundInt p i : ℚ) - i| ≤ ulp p * |(i : ℚ)| := by
  unfold roundInt
  rcases lt_or_ge i 0 with h | h
  · rw [if_neg (by omega)]
    obtain ⟨n, hn⟩ := Int.eq_ofNat_of_zero_le (show 0 ≤ -i by omega)
    have hi : i = -(n : Int) := by omega
    subst hi
    have := roundBits_err_rat hp n
    simp only [neg_neg, Int.toNat_natCast, Int.cast_neg, Int.cast_natCast, abs_neg, Nat.abs_cast]
    rw [show -(roundBits p n : ℚ) - -(n : ℚ) = -((roundBits p n : ℚ) - n) by ring, abs_neg]
    exact this
  · rw [if_pos (by omega)]
    obtain ⟨n, rfl⟩ := Int.eq_ofNat_of_zero_le h
    simpa using roundBits_err_rat hp n

theorem add_err (hp : 1 ≤ p) (a b : Flt p e) :
    |(a + b).value - (a.value + b.value)| ≤ ulp p * |a.value + b.value| := by
  have h := roundInt_err hp (a.units + b.units)
  have hpos : (0 : ℚ) < 2 ^ e := by positivity
  rw [add_units]
  unfold value
  dsimp only
  rw [← add_div, ← sub_div, abs_div, abs_div, abs_of_pos hpos, ← mul_div_assoc]
  push_cast at h
  gcongr

theorem sub_err (hp : 1 ≤ p) (a b : Flt p e) :
    |(a - b).value - (a.value - b.value)| ≤ ulp p * |a.value - b.value| := by
  have h := roundInt_err hp (a.units - b.units)
  have hpos : (0 : ℚ) < 2 ^ e := by positivity
  show |(⟨roundInt p (a.units - b.units)⟩ : Flt p e).value - _| ≤ _
  unfold value
  dsimp only
  rw [← sub_div, ← sub_div, abs_div, abs_div, abs_of_pos hpos, ← mul_div_assoc]
  push_cast at h
  gcongr

theorem roundProduct_err_rat {p e : Nat} (hp : 1 ≤ p) (m : Nat) :
    |(roundProduct p e m : ℚ) / 2 ^ e - m / 2 ^ (2 * e)| ≤ ulp p * (m / 2 ^ (2 * e)) + tiny e := by
  obtain ⟨h1, h2⟩ := roundProduct_err (e := e) hp m
  have h1' : (2 ^ p * (2 * ((roundProduct p e m : ℚ) * 2 ^ e))) ≤ 2 ^ p * (2 * m) + 2 * m + 2 ^ p * 2 ^ e := by exact_mod_cast h1
  have h2' : (2 ^ p * (2 * (m : ℚ))) ≤ 2 ^ p * (2 * ((roundProduct p e m : ℚ) * 2 ^ e)) + 2 * m + 2 ^ p * 2 ^ e := by exact_mod_cast h2
  generalize (roundProduct p e m : ℚ) = r at *
  generalize (m : ℚ) = m at *
  unfold ulp tiny
  rw [pow_succ, two_mul e, pow_add]
  have hP : (0 : ℚ) < 2 ^ p := by positivity
  have hE : (0 : ℚ) < 2 ^ e := by positivity
  generalize (2 : ℚ) ^ p = P at *
  generalize (2 : ℚ) ^ e = E at *
  have e1 : r / E - m / (E * E) = (r * E - m) / (E * E) := by field_simp
  have e2 : 1 / P * (m / (E * E)) + 1 / (E * 2) = (2 * m + P * E) / (2 * P) / (E * E) := by field_simp
  rw [e1, e2, abs_div, abs_of_pos (mul_pos hE hE)]
  apply div_le_div_of_nonneg_right _ (mul_pos hE hE).le
  rw [le_div_iff₀ (by positivity), ← abs_of_pos (show (0 : ℚ) < 2 * P by positivity), ← abs_mul, abs_le]
  constructor <;> linarith

theorem mul_err (hp : 1 ≤ p) (a b : Flt p e) :
    |(a * b).value - a.value * b.value| ≤ ulp p * |a.value * b.value| + tiny e := by
  have hv : a.value * b.value = ((a.units * b.units : Int) : ℚ) / 2 ^ (2 * e) := by
    unfold value
    rw [two_mul, pow_add]
    push_cast
    field_simp
  have hm : (a * b).value = (((if 0 ≤ a.units * b.units then (roundProduct p e (a.units * b.units).toNat : Int)
    else -roundProduct p e (-(a.units * b.units)).toNat : Int)) : ℚ) / 2 ^ e := rfl
  rw [hm, hv]
  generalize a.units * b.units = i
  have hpos : (0 : ℚ) < 2 ^ (2 * e) := by positivity
  rcases lt_or_ge i 0 with h | h
  · rw [if_neg (by omega)]
    obtain ⟨n, hn⟩ := Int.eq_ofNat_of_zero_le (show 0 ≤ -i by omega)
    have hi : i = -(n : Int) := by omega
    subst hi
    have := roundProduct_err_rat (e := e) hp n
    simp only [neg_neg, Int.toNat_natCast, Int.cast_neg, Int.cast_natCast, abs_neg, neg_div]
    rw [show -((roundProduct p e n : ℚ) / 2 ^ e) - -((n : ℚ) / 2 ^ (2 * e)) =
      -((roundProduct p e n : ℚ) / 2 ^ e - (n : ℚ) / 2 ^ (2 * e)) by ring, abs_neg,
      abs_of_nonneg (show (0 : ℚ) ≤ (n : ℚ) / 2 ^ (2 * e) by positivity)]
    exact this
  · rw [if_pos (by omega)]
    obtain ⟨n, rfl⟩ := Int.eq_ofNat_of_zero_le h
    have := roundProduct_err_rat (e := e) hp n
    simp only [Int.toNat_natCast, Int.cast_natCast]
    rw [abs_of_nonneg (show (0 : ℚ) ≤ (n : ℚ) / 2 ^ (2 * e) by positivity)]
    exact this

/-! ### Errors of composed operations -/

/-- `v` is `x` up to `c` roundings of numbers of total size `A`, and an absolute error `d`. -/
structure Approx (v : Flt p e) (x A : ℚ) (c : Nat) (d : ℚ) : Prop where
  err : |v.value - x| ≤ ((1 + ulp p) ^ c - 1) * A + d
  size : |x| ≤ A
  nonneg : 0 ≤ d

theorem Approx.exact (v : Flt p e) : Approx v v.value |v.value| 0 0 := ⟨by simp, le_refl _, le_refl _⟩

theorem pow_mono (p : Nat) {c d : Nat} (h : c ≤ d) : (1 + ulp p) ^ c ≤ (1 + ulp p) ^ d :=
  pow_le_pow_right₀ (by have := ulp_pos p; linarith) h

theorem pow_ge (p c : Nat) : 1 ≤ (1 + ulp p) ^ c := one_le_pow₀ (by have := ulp_pos p; linarith)

theorem Approx.mono {v : Flt p e} {x A d d' : ℚ} {c c' : Nat} (h : Approx v x A c d) (hc : c ≤ c') (hd : d ≤ d') :
    Approx v x A c' d' := by
  refine ⟨h.err.trans ?_, h.size, h.nonneg.trans hd⟩
  have hA : 0 ≤ A := (abs_nonneg x).trans h.size
  have := pow_mono p hc
  gcongr

theorem Approx.add (hp : 1 ≤ p) {v w : Flt p e} {x y A B d f : ℚ} {c : Nat} (hv : Approx v x A c d) (hw : Approx w y B c f) :
    Approx (v + w) (x + y) (A + B) (c + 1) ((1 + ulp p) * (d + f)) := by
  have hu := ulp_pos p
  refine ⟨?_, (abs_add_le x y).trans (add_le_add hv.size hw.size), by
    have := hv.nonneg; have := hw.nonneg; positivity⟩
  have h1 := add_err hp v w
  have h2 : |v.value + w.value - (x + y)| ≤ ((1 + ulp p) ^ c - 1) * (A + B) + (d + f) := by
    rw [show v.value + w.value - (x + y) = (v.value - x) + (w.value - y) by ring]
    refine (abs_add_le _ _).trans ?_
    have := hv.err
    have := hw.err
    linarith
  have h3 : |v.value + w.value| ≤ ((1 + ulp p) ^ c - 1) * (A + B) + (d + f) + (A + B) := by
    rw [show v.value + w.value = (v.value + w.value - (x + y)) + (x + y) by ring]
    refine (abs_add_le _ _).trans ?_
    have := (abs_add_le x y).trans (add_le_add hv.size hw.size)
    linarith
  rw [show (v + w).value - (x + y) = ((v + w).value - (v.value + w.value)) + (v.value + w.value - (x + y)) by ring]
  refine (abs_add_le _ _).trans ?_
  have h4 : ulp p * |v.value + w.value| ≤ ulp p * (((1 + ulp p) ^ c - 1) * (A + B) + (d + f) + (A + B)) := by gcongr
  rw [pow_succ]
  nlinarith [h1, h2, h4]

theorem Approx.mul (hp : 1 ≤ p) (v w : Flt p e) :
    Approx (v * w) (v.value * w.value) |v.value * w.value| 1 (tiny e) := by
  refine ⟨?_, le_refl _, (tiny_pos e).le⟩
  have := mul_err hp v w
  rw [pow_one, show 1 + ulp p - 1 = ulp p by ring]
  exact this

/-- Multiplication by one. -/
theorem Approx.one_mul (hp : 1 ≤ p) {v : Flt p e} {x A d : ℚ} {c : Nat} (hv : Approx v x A c d) :
    Approx (1 * v) x A (c + 1) ((1 + ulp p) * d + tiny e) := by
  have hu := ulp_pos p
  refine ⟨?_, hv.size, by have := hv.nonneg; have := tiny_pos e; positivity⟩
  have h1 := mul_err hp 1 v
  rw [value_one, _root_.one_mul] at h1
  have h2 := hv.err
  have h3 : |v.value| ≤ ((1 + ulp p) ^ c - 1) * A + d + A := by
    rw [show v.value = (v.value - x) + x by ring]
    refine (abs_add_le _ _).trans ?_
    have := hv.size
    linarith
  rw [show (1 * v).value - x = ((1 * v).value - v.value) + (v.value - x) by ring]
  refine (abs_add_le _ _).trans ?_
  have h4 : ulp p * |v.value| ≤ ulp p * (((1 + ulp p) ^ c - 1) * A + d + A) := by gcongr
  rw [pow_succ]
  nlinarith [h1, h2, h4]

/-- A sum of rounded numbers. -/
theorem Approx.sumTo (hp : 1 ≤ p) {v : Nat → Flt p e} {x A : Nat → ℚ} {d : ℚ} {c : Nat} (hd : 0 ≤ d) (n : Nat)
    (h : ∀ k, k < n → Approx (v k) (x k) (A k) c d) :
    Approx (TensorMath.sumTo v n) (∑ k ∈ Finset.range n, x k) (∑ k ∈ Finset.range n, A k) (c + n)
      (n * (1 + ulp p) ^ n * d) := by
  have hu := ulp_pos p
  induction n with
  | zero =>
    refine ⟨?_, by simp, by simp⟩
    show |(0 : Flt p e).value - _| ≤ _
    rw [value_zero]
    simp
  | succ n ih =>
    have h1 := ih (fun k hk => h k (by omega))
    have h2 := (h n (by omega)).mono (c' := c + n) (by omega) (le_refl d)
    have h3 := h1.add hp h2
    rw [Finset.sum_range_succ, Finset.sum_range_succ]
    refine h3.mono (by omega) ?_
    have hg := pow_ge p n
    push_cast
    rw [pow_succ]
    have : (1 + ulp p) * d ≤ (1 + ulp p) * ((1 + ulp p) ^ n * d) := by
      gcongr
      exact le_mul_of_one_le_left hd hg
    nlinarith [this]

/-- A power of a number close to one. -/
theorem pow_le_two_mul (p : Nat) (n : Nat) (h : n * ulp p ≤ 1 / 2) : (1 + ulp p) ^ n ≤ 1 + 2 * n * ulp p := by
  have hu := ulp_pos p
  induction n with
  | zero => simp
  | succ n ih =>
    push_cast at h ⊢
    have h1 : (n : ℚ) * ulp p ≤ 1 / 2 := by linarith
    have h2 := ih h1
    rw [pow_succ]
    nlinarith [mul_le_mul_of_nonneg_right h2 (show (0 : ℚ) ≤ 1 + ulp p by linarith), mul_le_mul_of_nonneg_right h1 hu.le]

end Flt
end CN24
