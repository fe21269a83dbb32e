import Verif.Base.Flt
import Verif.Proof.StatLayers
import Mathlib.Tactic.Ring
import Mathlib.Tactic.NormNum
import Mathlib.Tactic.Linarith
import Mathlib.Tactic.FieldSimp

/-
Proofs about sums of floating point numbers.
-/

namespace CN24
namespace Flt
variable {p e : Nat}

theorem roundBits_of_dvd {p m : Nat} (h : 2 ^ (m.log2 + 1 - p) ∣ m) : roundBits p m = m := by
  unfold roundBits roundShift
  have h0 : m % 2 ^ (m.log2 + 1 - p) = 0 := Nat.mod_eq_zero_of_dvd h
  have hp : 0 < 2 ^ (m.log2 + 1 - p) := Nat.two_pow_pos _
  dsimp only
  rw [h0, if_neg (by omega)]
  exact Nat.div_mul_cancel h

/-- Numbers of at most `2^p` units of one size are exact. -/
theorem roundBits_scaled {p k j : Nat} (hp : 1 ≤ p) (h : k ≤ 2 ^ p) : roundBits p (k * 2 ^ j) = k * 2 ^ j := by
  apply roundBits_of_dvd
  by_cases hk : k = 0
  · subst hk; simp
  rcases Nat.lt_or_ge k (2 ^ p) with hlt | hge
  · have h1 : (k * 2 ^ j).log2 < p + j := by
      rw [Nat.log2_lt (Nat.mul_ne_zero hk (Nat.two_pow_pos j).ne'), Nat.pow_add]
      exact Nat.mul_lt_mul_of_pos_right hlt (Nat.two_pow_pos j)
    exact Dvd.dvd.mul_left (Nat.pow_dvd_pow 2 (by omega)) k
  · have : k = 2 ^ p := by omega
    subst this
    rw [← Nat.pow_add, Nat.log2_two_pow]
    exact Nat.pow_dvd_pow 2 (by omega)

/-- From `2^p` units of some size on, at most one such unit more is lost. -/
theorem roundBits_sat {p j d : Nat} (hp : 2 ≤ p) (h : d ≤ 2 ^ j) : roundBits p (2 ^ (p + j) + d) = 2 ^ (p + j) := by
  have hj : 0 < 2 ^ j := Nat.two_pow_pos j
  have e1 : 2 ^ (p + j) = 2 ^ (p - 1) * 2 ^ (j + 1) := by rw [← Nat.pow_add]; congr 1; omega
  have e3 : 2 ^ (j + 1) = 2 * 2 ^ j := by rw [Nat.pow_succ, Nat.mul_comm]
  have e2 : 2 ^ (p - 1) = 2 * 2 ^ (p - 2) := by rw [Nat.mul_comm, ← Nat.pow_succ]; congr 1; omega
  have hpp : 0 < 2 ^ (p - 2) := Nat.two_pow_pos _
  have hlog : (2 ^ (p + j) + d).log2 = p + j := by
    rw [Nat.log2_eq_iff (by have := Nat.two_pow_pos (p + j); omega)]
    have : 2 ^ j ≤ 2 ^ (p + j - 1) := Nat.pow_le_pow_right (by omega) (by omega)
    have h3 : 2 ^ (p + j) = 2 * 2 ^ (p + j - 1) := by rw [Nat.mul_comm, ← Nat.pow_succ]; congr 1; omega
    have h4 : 2 ^ (p + j + 1) = 2 * 2 ^ (p + j) := by rw [Nat.pow_succ, Nat.mul_comm]
    have h5 : 2 ^ j < 2 ^ (p + j) := Nat.pow_lt_pow_right (by omega) (by omega)
    omega
  unfold roundBits roundShift
  rw [hlog, show p + j + 1 - p = j + 1 by omega]
  dsimp only
  have hd : d < 2 ^ (j + 1) := by omega
  have hq : (2 ^ (p + j) + d) / 2 ^ (j + 1) = 2 ^ (p - 1) := by
    rw [e1, Nat.add_comm, Nat.add_mul_div_right _ _ (by omega), Nat.div_eq_of_lt hd]; omega
  have hr : (2 ^ (p + j) + d) % 2 ^ (j + 1) = d := by
    rw [e1, Nat.add_comm, Nat.add_mul_mod_self_right, Nat.mod_eq_of_lt hd]
  rw [hq, hr, if_neg (by omega), ← e1]

/-- Rounding does not leave a power of two. -/
theorem roundBits_le {p m n : Nat} (hp : 1 ≤ p) (h : m ≤ 2 ^ n) : roundBits p m ≤ 2 ^ n := by
  rcases Nat.lt_or_ge m (2 ^ n) with hlt | hge
  · by_cases hm : m = 0
    · subst hm; simp [roundBits, roundShift]
    have hl : m.log2 < n := (Nat.log2_lt hm).2 hlt
    unfold roundBits roundShift
    dsimp only
    generalize hs : m.log2 + 1 - p = s
    have hsn : s ≤ n := by omega
    have e : 2 ^ n = 2 ^ (n - s) * 2 ^ s := by rw [← Nat.pow_add]; congr 1; omega
    have hq : m / 2 ^ s < 2 ^ (n - s) := by
      rw [Nat.div_lt_iff_lt_mul (Nat.two_pow_pos s), ← e]; exact hlt
    rw [e]
    apply Nat.mul_le_mul_right
    split <;> omega
  · have : m = 2 ^ n := by omega
    subst this
    rcases Nat.lt_or_ge n p with h | h
    · have := roundBits_scaled (p := p) (k := 2 ^ n) (j := 0) hp (Nat.pow_le_pow_right (by omega) (by omega))
      simp only [Nat.pow_zero, Nat.mul_one] at this
      omega
    · have := roundBits_scaled (p := p) (k := 2 ^ p) (j := n - p) hp (Nat.le_refl _)
      rw [← Nat.pow_add, show p + (n - p) = n by omega] at this
      omega

/-- A whole number. -/
def nat (p e k : Nat) : Flt p e := ⟨((k * 2 ^ e : Nat) : Int)⟩

theorem nat_value (k : Nat) : (nat p e k).value = k := by
  unfold value nat
  push_cast
  field_simp

theorem zero_eq : (0 : Flt p e) = nat p e 0 := by
  show (⟨0⟩ : Flt p e) = _
  simp [nat]

theorem one_eq : (1 : Flt p e) = nat p e 1 := by
  show (⟨2 ^ e⟩ : Flt p e) = _
  simp [nat]

theorem add_units (a b : Flt p e) : a + b = ⟨roundInt p (a.units + b.units)⟩ := rfl

theorem roundInt_nat (m : Nat) : roundInt p (m : Int) = (roundBits p m : Int) := by
  unfold roundInt
  rw [if_pos (by omega), Int.toNat_natCast]

theorem nat_add_zero {k : Nat} (hp : 1 ≤ p) (h : k ≤ 2 ^ p) : nat p e k + 0 = nat p e k := by
  rw [zero_eq, add_units]
  unfold nat
  simp only [Nat.zero_mul, Nat.cast_zero, add_zero]
  rw [roundInt_nat, roundBits_scaled hp h]

/-- Counting stops at `2^p`. -/
theorem nat_add_one {k : Nat} (hp : 2 ≤ p) (h : k ≤ 2 ^ p) : nat p e k + 1 = nat p e (min (k + 1) (2 ^ p)) := by
  rw [one_eq, add_units]
  unfold nat
  rw [Nat.one_mul, ← Nat.cast_add, roundInt_nat]
  rcases Nat.lt_or_ge k (2 ^ p) with hlt | hge
  · rw [Nat.min_eq_left (by omega), show k * 2 ^ e + 2 ^ e = (k + 1) * 2 ^ e by ring,
      roundBits_scaled (by omega) (by omega)]
  · have : k = 2 ^ p := by omega
    subst this
    rw [Nat.min_eq_right (by omega), ← Nat.pow_add, roundBits_sat hp (Nat.le_refl _)]

theorem value_lt (a b : Flt p e) : a.value < b.value ↔ a < b := by
  show _ ↔ a.units < b.units
  unfold value
  rw [div_lt_div_iff_of_pos_right (by positivity)]
  exact_mod_cast Iff.rfl

theorem value_le (a b : Flt p e) : a.value ≤ b.value ↔ a.units ≤ b.units := by
  unfold value
  rw [div_le_div_iff_of_pos_right (by positivity)]
  exact_mod_cast Iff.rfl

theorem value_zero : (0 : Flt p e).value = 0 := by rw [zero_eq, nat_value]; simp

theorem value_one : (1 : Flt p e).value = 1 := by rw [one_eq, nat_value]; simp

/-- A sum of a number up to `2^p` and one up to one does not exceed `2^p`. -/
theorem add_bounds {a w : Flt p e} (hp : 2 ≤ p) (h0 : 0 ≤ a.units) (h1 : a.units ≤ 2 ^ (p + e)) (h2 : 0 ≤ w.units)
    (h3 : w.units ≤ 2 ^ e) : 0 ≤ (a + w).units ∧ (a + w).units ≤ 2 ^ (p + e) := by
  obtain ⟨a⟩ := a
  obtain ⟨w⟩ := w
  rw [add_units]
  dsimp only at *
  obtain ⟨a, rfl⟩ := Int.eq_ofNat_of_zero_le h0
  obtain ⟨w, rfl⟩ := Int.eq_ofNat_of_zero_le h2
  rw [← Nat.cast_add, roundInt_nat]
  refine ⟨by omega, ?_⟩
  have h1' : a ≤ 2 ^ (p + e) := by exact_mod_cast h1
  have h3' : w ≤ 2 ^ e := by exact_mod_cast h3
  have : roundBits p (a + w) ≤ 2 ^ (p + e) := by
    rcases Nat.lt_or_ge (2 ^ (p + e)) (a + w) with h | h
    · have := roundBits_sat (p := p) (j := e) (d := a + w - 2 ^ (p + e)) hp (by omega)
      rw [show 2 ^ (p + e) + (a + w - 2 ^ (p + e)) = a + w by omega] at this
      omega
    · exact roundBits_le (by omega) h
  exact_mod_cast this

/-- A counter that has reached `2^p` does not change. -/
theorem add_stuck {w : Flt p e} (hp : 2 ≤ p) (h2 : 0 ≤ w.units) (h3 : w.units ≤ 2 ^ e) :
    nat p e (2 ^ p) + w = nat p e (2 ^ p) := by
  obtain ⟨w⟩ := w
  obtain ⟨w, rfl⟩ := Int.eq_ofNat_of_zero_le h2
  dsimp only at h3
  have h3' : w ≤ 2 ^ e := by exact_mod_cast h3
  rw [add_units]
  unfold nat
  dsimp only
  rw [← Nat.cast_add, roundInt_nat, ← Nat.pow_add, roundBits_sat hp h3']

end Flt
end CN24
