import Verif.Model.StepRounding
import Verif.Proof.RoundingDown
import Verif.Proof.Trainer

/-
Proofs about updates of weights with rounding.
-/

namespace CN24
namespace Flt
open RoundingNet
variable {p e : Nat}

theorem value_neg (a : Flt p e) : (-a).value = -a.value := by
  show ((-a.units : Int) : ℚ) / 2 ^ e = -((a.units : ℚ) / 2 ^ e)
  push_cast
  ring

theorem mul_comm' (a b : Flt p e) : a * b = b * a := by
  show (⟨_⟩ : Flt p e) = ⟨_⟩
  rw [Int.mul_comm a.units b.units]

theorem sub_eq (a b : Flt p e) : a - b = a + -b := by
  show (⟨roundInt p (a.units - b.units)⟩ : Flt p e) = ⟨roundInt p (a.units + -b.units)⟩
  rw [Int.sub_eq_add_neg]

theorem Approx.neg {v : Flt p e} {x A d : ℚ} {c : Nat} (h : Approx v x A c d) : Approx (-v) (-x) A c d := by
  refine ⟨?_, by rw [abs_neg]; exact h.size, h.nonneg⟩
  rw [value_neg, show -v.value - -x = -(v.value - x) by ring, abs_neg]
  exact h.err

theorem Approx.sub (hp : 1 ≤ p) {v w : Flt p e} {x y A B d f : ℚ} {c : Nat} (hv : Approx v x A c d) (hw : Approx w y B c f) :
    Approx (v - w) (x - y) (A + B) (c + 1) ((1 + ulp p) * (d + f)) := by
  rw [sub_eq, sub_eq_add_neg]
  exact hv.add hp hw.neg

/-- An exact factor. -/
theorem Approx.mul_left (hp : 1 ≤ p) (a : Flt p e) {v : Flt p e} {x A d : ℚ} {c : Nat} (hv : Approx v x A c d) :
    Approx (a * v) (a.value * x) (|a.value| * A) (c + 1) ((1 + ulp p) * (|a.value| * d) + tiny e) := by
  have hu := ulp_pos p
  have ha := abs_nonneg a.value
  refine ⟨?_, by rw [abs_mul]; exact mul_le_mul_of_nonneg_left hv.size ha,
    by have := hv.nonneg; have := tiny_pos e; positivity⟩
  have h1 := mul_err hp a v
  have h3 : |v.value| ≤ ((1 + ulp p) ^ c - 1) * A + d + A := by
    rw [show v.value = (v.value - x) + x by ring]
    refine (abs_add_le _ _).trans ?_
    have := hv.size
    have := hv.err
    linarith
  rw [show (a * v).value - a.value * x = ((a * v).value - a.value * v.value) + a.value * (v.value - x) by ring]
  refine (abs_add_le _ _).trans ?_
  rw [abs_mul a.value (v.value - x)]
  rw [abs_mul] at h1
  have h4 : ulp p * (|a.value| * |v.value|) ≤ ulp p * (|a.value| * (((1 + ulp p) ^ c - 1) * A + d + A)) := by gcongr
  have h5 : |a.value| * |v.value - x| ≤ |a.value| * (((1 + ulp p) ^ c - 1) * A + d) := mul_le_mul_of_nonneg_left hv.err ha
  rw [pow_succ]
  nlinarith [h1, h4, h5]

theorem Approx.mul_right (hp : 1 ≤ p) (a : Flt p e) {v : Flt p e} {x A d : ℚ} {c : Nat} (hv : Approx v x A c d) :
    Approx (v * a) (x * a.value) (A * |a.value|) (c + 1) ((1 + ulp p) * (|a.value| * d) + tiny e) := by
  rw [mul_comm', mul_comm x, mul_comm A]
  exact hv.mul_left hp a

theorem neg_div_flt (a b : Flt p e) : -a / b = -(a / b) := by
  show (⟨(-a.units).sign * b.units.sign * roundQuotient p ((-a.units).natAbs * 2 ^ e) b.units.natAbs⟩ : Flt p e) =
    ⟨-(a.units.sign * b.units.sign * roundQuotient p (a.units.natAbs * 2 ^ e) b.units.natAbs)⟩
  rw [Int.sign_neg, Int.natAbs_neg]
  congr 1
  ring

/-- A quotient by a positive number. -/
theorem Approx.div (hp : 1 ≤ p) (a b : Flt p e) (hb : 0 < b.units) :
    Approx (a / b) (a.value / b.value) |a.value / b.value| 1 (tiny e) := by
  have hbv : 0 < b.value := by
    unfold value
    have : (0 : ℚ) < b.units := by exact_mod_cast hb
    positivity
  have key : ∀ a : Flt p e, 0 ≤ a.units → Approx (a / b) (a.value / b.value) |a.value / b.value| 1 (tiny e) := by
    intro a ha
    refine ⟨?_, le_refl _, (tiny_pos e).le⟩
    have hav : 0 ≤ a.value := by
      unfold value
      have : (0 : ℚ) ≤ a.units := by exact_mod_cast ha
      positivity
    have h := div_err hp a b ha hb
    rw [pow_one, show 1 + ulp p - 1 = ulp p by ring, abs_of_nonneg (div_nonneg hav hbv.le)]
    exact h
  rcases le_or_gt 0 a.units with h | h
  · exact key a h
  · have h' := (key (-a) (by show 0 ≤ -a.units; omega)).neg
    rw [neg_div_flt, value_neg, neg_div, neg_neg, abs_neg] at h'
    rwa [show -(-(a / b)) = a / b by show (⟨- -_⟩ : Flt p e) = _; simp] at h'

/-- A number with `p` bits is not changed by a number that is `2^(p+2)` times smaller. -/
theorem roundBits_near {p n k m : Nat} (hp : 1 ≤ p) (hn : n < 2 ^ p) (h1 : m ≤ n * 2 ^ k + d)
    (h2 : n * 2 ^ k ≤ m + d) (hd : d * 2 ^ (p + 2) ≤ n * 2 ^ k) : roundBits p m = n * 2 ^ k := by
  rcases Nat.eq_zero_or_pos d with rfl | hd0
  · have : m = n * 2 ^ k := by omega
    rw [this]
    exact roundBits_exact hp hn
  have hP : 0 < 2 ^ p := Nat.two_pow_pos p
  have hP2 : 2 ≤ 2 ^ p := Nat.le_self_pow (by omega) 2
  have e4 : 2 ^ (p + 2) = 4 * 2 ^ p := by rw [Nat.pow_add]; ring
  rw [e4] at hd
  have hdm : d * 8 ≤ n * 2 ^ k := by nlinarith
  have hm0 : m ≠ 0 := by omega
  have hlow := Nat.log2_self_le hm0
  have hup := Nat.lt_log2_self (n := m)
  -- the exponent
  have hk : m.log2 < p + k := by
    rw [Nat.log2_lt hm0, Nat.pow_add]
    have hn' : n + 1 ≤ 2 ^ p := hn
    have : (n + 1) * 2 ^ k ≤ 2 ^ p * 2 ^ k := Nat.mul_le_mul_right _ hn'
    have hd' : d * 4 * 2 ^ p < 2 ^ p * 2 ^ k := by
      have : n * 2 ^ k < 2 ^ p * 2 ^ k := Nat.mul_lt_mul_of_pos_right hn (Nat.two_pow_pos k)
      nlinarith
    have hd'' : d * 4 < 2 ^ k := by
      by_contra hc
      have : 2 ^ k * 2 ^ p ≤ d * 4 * 2 ^ p := Nat.mul_le_mul_right _ (by omega)
      nlinarith
    rw [Nat.add_mul] at this
    omega
  set s := m.log2 + 1 - p with hs
  have hsk : s ≤ k := by omega
  have hbig : 2 * d < 2 ^ s := by
    have h3 : 2 ^ (m.log2 + 1) ≤ 2 ^ p * 2 ^ s := by
      rw [← Nat.pow_add]
      exact Nat.pow_le_pow_right (by norm_num) (by omega)
    have h5 : d * (4 * 2 ^ p) < 2 ^ p * 2 ^ s + d := by
      omega
    by_contra hc
    have h6 : 2 ^ p * 2 ^ s ≤ 2 ^ p * (2 * d) := Nat.mul_le_mul_left _ (by omega)
    nlinarith
  have herr := roundShift_err s m
  have hr : roundBits p m = roundShift s m * 2 ^ s := rfl
  rw [hr]
  obtain ⟨c, hc⟩ : ∃ c, n * 2 ^ k = c * 2 ^ s := ⟨n * 2 ^ (k - s), by
    rw [Nat.mul_assoc, ← Nat.pow_add, show k - s + s = k by omega]⟩
  rw [hc] at h1 h2 ⊢
  congr 1
  generalize roundShift s m = r at herr ⊢
  generalize 2 ^ s = t at *
  rcases Nat.lt_trichotomy r c with h | h | h
  · exfalso
    have : (r + 1) * t ≤ c * t := Nat.mul_le_mul_right _ h
    rw [Nat.add_mul] at this
    omega
  · exact h
  · exfalso
    have : (c + 1) * t ≤ r * t := Nat.mul_le_mul_right _ h
    rw [Nat.add_mul] at this
    omega

/-- The number is one of the format: at most `p` bits. -/
def InFormat (a : Flt p e) : Prop := ∃ n k : Nat, n < 2 ^ p ∧ a.units.natAbs = n * 2 ^ k

/-- Small numbers are lost in differences. -/
theorem sub_small (hp : 1 ≤ p) {a b : Flt p e} (ha : a.InFormat) (h : |b.value| * 2 ^ (p + 2) ≤ |a.value|) : a - b = a := by
  obtain ⟨n, k, hn, hu⟩ := ha
  have he : (0 : ℚ) < 2 ^ e := by positivity
  have hN : b.units.natAbs * 2 ^ (p + 2) ≤ n * 2 ^ k := by
    unfold value at h
    rw [abs_div, abs_div, abs_of_pos he, div_mul_eq_mul_div, div_le_div_iff_of_pos_right he] at h
    rw [← hu]
    have h' : |b.units| * 2 ^ (p + 2) ≤ |a.units| := by exact_mod_cast h
    zify
    exact h'
  have hds : 2 * b.units.natAbs ≤ n * 2 ^ k := by
    have : 2 ≤ 2 ^ (p + 2) := Nat.le_self_pow (by omega) 2
    rw [Nat.mul_comm]
    exact (Nat.mul_le_mul_left _ this).trans hN
  obtain ⟨a⟩ := a
  obtain ⟨b⟩ := b
  show (⟨roundInt p (a - b)⟩ : Flt p e) = ⟨a⟩
  dsimp only at hu hN hds
  congr 1
  unfold roundInt
  rcases lt_or_ge (a - b) 0 with hneg | hpos
  · rw [if_neg (by omega), roundBits_near hp hn (d := b.natAbs) (by omega) (by omega) hN]
    omega
  · rw [if_pos hpos, roundBits_near hp hn (d := b.natAbs) (by omega) (by omega) hN]
    omega

/-- A sum that is not larger than a power of two is not rounded beyond it. -/
theorem add_le_pow (hp : 1 ≤ p) {a b : Flt p e} {k : Nat} (h : |a.value| + |b.value| ≤ 2 ^ k / 2 ^ e) :
    |(a + b).value| ≤ 2 ^ k / 2 ^ e := by
  have he : (0 : ℚ) < 2 ^ e := by positivity
  unfold value at h ⊢
  rw [abs_div, abs_div, abs_of_pos he, ← add_div, div_le_div_iff_of_pos_right he] at h
  rw [abs_div, abs_of_pos he, div_le_div_iff_of_pos_right he]
  have h' : |a.units| + |b.units| ≤ 2 ^ k := by exact_mod_cast h
  have h'' : |a.units + b.units| ≤ ((2 ^ k : Nat) : Int) := by
    push_cast
    exact (abs_add_le _ _).trans h'
  have goal : |(a + b).units| ≤ ((2 ^ k : Nat) : Int) := by
    show |roundInt p (a.units + b.units)| ≤ _
    generalize a.units + b.units = i at h''
    rw [abs_le] at h'' ⊢
    unfold roundInt
    split
    · have := roundBits_le (m := i.toNat) (n := k) hp (by omega)
      omega
    · have := roundBits_le (m := (-i).toNat) (n := k) hp (by omega)
      omega
  have goal' : ((|(a + b).units| : Int) : ℚ) ≤ ((2 ^ k : Nat) : Int) := by exact_mod_cast goal
  push_cast at goal'
  exact goal'

end Flt
end CN24
