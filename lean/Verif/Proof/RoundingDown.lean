import Verif.Proof.Rounding
import Verif.Proof.TensorMath
import Mathlib.Data.Nat.Cast.Order.Field

/-
Division with rounding, and the mean of a region of a tensor in single precision.
-/

namespace CN24.RoundingNet
open CN24 CN24.Tensor CN24.TensorMath

/-- Rounding a quotient to a whole number is off by at most one half. -/
theorem roundDiv_err {n d : Nat} (hd : 0 < d) : |(roundDiv n d : ℚ) - n / d| ≤ 1 / 2 := by
  have hd' : (0 : ℚ) < d := by exact_mod_cast hd
  have h1 := Nat.div_add_mod n d
  have h2 := Nat.mod_lt n hd
  have key : 2 * (roundDiv n d * d) ≤ 2 * n + d ∧ 2 * n ≤ 2 * (roundDiv n d * d) + d := by
    unfold roundDiv
    dsimp only
    rw [Nat.mul_comm] at h1
    split
    · rw [Nat.add_mul]; omega
    · omega
  have k1 : (2 : ℚ) * (roundDiv n d * d) ≤ 2 * n + d := by exact_mod_cast key.1
  have k2 : (2 : ℚ) * n ≤ 2 * (roundDiv n d * d) + d := by exact_mod_cast key.2
  have e : (roundDiv n d : ℚ) - n / d = (roundDiv n d * d - n) / d := by field_simp
  rw [e, abs_div, abs_of_pos hd', div_le_iff₀ hd', abs_le]
  constructor <;> linarith

/-- Rounding a quotient to significant bits. -/
theorem roundQuotient_err {p n d : Nat} (hp0 : 1 ≤ p) (hd : 0 < d) :
    |(roundQuotient p n d : ℚ) - n / d| ≤ 1 / 2 ^ p * (n / d) + 1 / 2 := by
  have hd' : (0 : ℚ) < d := by exact_mod_cast hd
  have hn : (0 : ℚ) ≤ (n : ℚ) / d := by positivity
  unfold roundQuotient
  dsimp only
  generalize hs : (n / d).log2 + 1 - p = s
  have h := roundDiv_err (n := n) (d := d * 2 ^ s) (by positivity)
  have hp : (0 : ℚ) < 2 ^ s := by positivity
  have e : ((roundDiv n (d * 2 ^ s) * 2 ^ s : Nat) : ℚ) - n / d = (roundDiv n (d * 2 ^ s) - n / ((d * 2 ^ s : Nat) : ℚ)) * 2 ^ s := by
    push_cast
    field_simp
  rw [e, abs_mul, abs_of_pos hp]
  refine (mul_le_mul_of_nonneg_right h hp.le).trans ?_
  by_cases h0 : s = 0
  · subst h0
    have : (0 : ℚ) ≤ 1 / 2 ^ p * (n / d) := by positivity
    linarith
  · have hq : n / d ≠ 0 := by
      intro h
      rw [h] at hs
      simp at hs
      omega
    have hlog : 2 ^ (n / d).log2 ≤ n / d := Nat.log2_self_le hq
    have hsp : s + p = (n / d).log2 + 1 := by omega
    have k1 : (2 : ℚ) ^ (n / d).log2 ≤ n / d := by
      refine le_trans ?_ (Nat.cast_div_le (α := ℚ))
      exact_mod_cast hlog
    have k2 : (2 : ℚ) ^ s * 2 ^ p = 2 ^ (n / d).log2 * 2 := by rw [← pow_add, hsp, pow_succ]
    have hpp : (0 : ℚ) < 2 ^ p := by positivity
    have k3 : (1 / 2 : ℚ) * 2 ^ s ≤ 1 / 2 ^ p * (n / d) := by
      rw [div_mul_eq_mul_div, div_mul_eq_mul_div, one_mul, one_mul, div_le_div_iff₀ (by norm_num) hpp]
      linarith
    linarith

/-- The error of a quotient of numbers that are not negative. -/
theorem div_err {p e : Nat} (hp : 1 ≤ p) (a b : Flt p e) (ha : 0 ≤ a.units) (hb : 0 < b.units) :
    |(a / b).value - a.value / b.value| ≤ 1 / 2 ^ p * (a.value / b.value) + 1 / 2 ^ (e + 1) := by
  obtain ⟨a⟩ := a
  obtain ⟨b⟩ := b
  dsimp only at ha hb
  obtain ⟨n, rfl⟩ := Int.eq_ofNat_of_zero_le ha
  obtain ⟨d, rfl⟩ := Int.eq_ofNat_of_zero_le hb.le
  have hd : 0 < d := by exact_mod_cast hb
  have hd' : (0 : ℚ) < d := by exact_mod_cast hd
  have he : (0 : ℚ) < 2 ^ e := by positivity
  have hval : ((⟨(n : Int)⟩ : Flt p e) / ⟨(d : Int)⟩).value = (roundQuotient p (n * 2 ^ e) d : ℚ) / 2 ^ e := by
    show (((n : Int).sign * (d : Int).sign * (roundQuotient p ((n : Int).natAbs * 2 ^ e) (d : Int).natAbs : Nat) : Int) : ℚ) / 2 ^ e = _
    rw [Int.sign_eq_one_of_pos (a := (d : Int)) (by exact_mod_cast hd), Int.natAbs_natCast, Int.natAbs_natCast]
    rcases Nat.eq_zero_or_pos n with rfl | hn
    · simp [roundQuotient, roundDiv]
    · rw [Int.sign_eq_one_of_pos (a := (n : Int)) (by exact_mod_cast hn)]
      simp
  have hq : (⟨(n : Int)⟩ : Flt p e).value / (⟨(d : Int)⟩ : Flt p e).value = ((n * 2 ^ e : Nat) : ℚ) / d / 2 ^ e := by
    unfold Flt.value
    push_cast
    field_simp
  have h := roundQuotient_err (p := p) (n := n * 2 ^ e) hp hd
  rw [hval, hq, ← sub_div, abs_div, abs_of_pos he, div_le_iff₀ he]
  refine h.trans (le_of_eq ?_)
  rw [pow_succ]
  field_simp

/-- Numbers that have few enough bits are not rounded. -/
theorem roundShift_exact (s n : Nat) : roundShift s (n * 2 ^ s) = n := by
  unfold roundShift
  have hp : 0 < 2 ^ s := Nat.two_pow_pos s
  simp only [Nat.mul_div_cancel n hp, Nat.mul_mod_left, Nat.mul_zero]
  rw [if_neg (by omega)]

theorem shift_le {p k n : Nat} (hp : 1 ≤ p) (hn : n < 2 ^ p) : (n * 2 ^ k).log2 + 1 - p ≤ k := by
  by_cases h0 : n * 2 ^ k = 0
  · rw [h0]
    have : Nat.log2 0 = 0 := rfl
    omega
  · have : n * 2 ^ k < 2 ^ (p + k) := by rw [pow_add]; exact Nat.mul_lt_mul_of_pos_right hn (Nat.two_pow_pos k)
    have := (Nat.log2_lt h0).2 this
    omega

theorem roundBits_exact {p k n : Nat} (hp : 1 ≤ p) (hn : n < 2 ^ p) : roundBits p (n * 2 ^ k) = n * 2 ^ k := by
  unfold roundBits
  have h := shift_le (k := k) hp hn
  generalize (n * 2 ^ k).log2 + 1 - p = s at h
  have e : n * 2 ^ k = n * 2 ^ (k - s) * 2 ^ s := by rw [Nat.mul_assoc, ← pow_add]; congr 2; omega
  rw [e, roundShift_exact]

theorem cast_exact {n : Nat} (hn : n < 2 ^ 24) : ((n : Single)).units = n * 2 ^ 149 := by
  show ((roundBits 24 (n * 2 ^ 149) : Nat) : Int) = _
  rw [roundBits_exact (by norm_num) hn]
  push_cast
  rfl

/-- A product of few bits is not rounded. -/
theorem roundProduct_exact {p e n : Nat} (hp : 1 ≤ p) (h : n < 2 ^ p) : roundProduct p e (n * 2 ^ (e + e)) = n * 2 ^ e := by
  have hs := shift_le (k := e + e) hp h
  unfold roundProduct
  dsimp only
  generalize hsd : max ((n * 2 ^ (e + e)).log2 + 1 - p) e = s
  have hs1 : e ≤ s := by omega
  have hs2 : s ≤ e + e := by omega
  have e3 : n * 2 ^ (e + e) = n * 2 ^ (e + e - s) * 2 ^ s := by
    rw [Nat.mul_assoc, ← pow_add]; congr 2; omega
  rw [e3, roundShift_exact, Nat.mul_assoc, ← pow_add, show e + e - s + (s - e) = e by omega]

theorem mul_units {p e : Nat} (a b : Flt p e) {m : Nat} (h : a.units * b.units = m) : (a * b).units = roundProduct p e m := by
  have hm : (a * b).units = if 0 ≤ a.units * b.units then (roundProduct p e (a.units * b.units).toNat : Int)
      else -roundProduct p e (-(a.units * b.units)).toNat := rfl
  rw [hm, h, if_pos (by positivity), Int.toNat_natCast]

theorem mul_exact {a b : Nat} (ha : a < 2 ^ 24) (hb : b < 2 ^ 24) (h : a * b < 2 ^ 24) :
    ((a : Single) * (b : Single)).units = (a * b : Nat) * 2 ^ 149 := by
  rw [mul_units (m := a * b * 2 ^ (149 + 149)) _ _ (by rw [cast_exact ha, cast_exact hb, pow_add]; push_cast; ring),
    roundProduct_exact (by norm_num) h]
  push_cast
  rfl

/-- The factor by which the layer multiplies. -/
theorem factor_err {a b : Nat} (ha : 0 < a) (hb : 0 < b) (h : a * b ≤ 2 ^ 23) :
    |((1 : Single) / ((a : Single) * (b : Single))).value - 1 / ((a : ℚ) * b)| ≤ 1 / 2 ^ 24 * (1 / ((a : ℚ) * b)) + 1 / 2 ^ 150 := by
  have h1 : a ≤ a * b := Nat.le_mul_of_pos_right a hb
  have h2 : b ≤ a * b := Nat.le_mul_of_pos_left b ha
  have hu := mul_exact (a := a) (b := b) (by omega) (by omega) (by omega)
  have hv : ((a : Single) * (b : Single)).value = (a : ℚ) * b := by
    unfold Flt.value
    rw [hu]
    push_cast
    norm_num
  have hpos : 0 < ((a : Single) * (b : Single)).units := by
    rw [hu]
    have : 0 < a * b := Nat.mul_pos ha hb
    positivity
  have := div_err (p := 24) (e := 149) (by norm_num) 1 ((a : Single) * (b : Single)) (by decide) hpos
  rw [hv, Flt.value_one] at this
  exact this

/-! ### Sums -/

section
variable {R : Type _} [Zero R] [Add R]

/-- A sum added up from `a` in the order of the loop. -/
def addUp (v : Nat → R) (n : Nat) (a : R) : R := (List.range n).foldl (fun s k => s + v k) a

/-- The sum of a region in the order of the loops. -/
def regionUp (v : Nat → Nat → R) (rh rw : Nat) : R := (List.range rh).foldl (fun s ry => addUp (v ry) rw s) 0

theorem forLoop_fold {σ : Type _} (n : Nat) (f : Nat → σ → Option σ) (g : Nat → σ → σ) (a : σ)
    (h : ∀ k s, k < n → f k s = some (g k s)) : forLoop n f a = some ((List.range n).foldl (fun s k => g k s) a) := by
  induction n with
  | zero => rfl
  | succ n ih =>
    rw [forLoop_succ, ih fun k s hk => h k s (by omega), Option.bind_some, h n _ (by omega), List.range_succ, List.foldl_append]
    rfl

/-- `down` in any arithmetic. -/
theorem down_any [Mul R] {source target : Tensor R} {rw rh : Nat} {factor : R} (hs : source.WF)
    (ht : target.WF) (hw : source.width = rw * target.width)
    (hh : source.height = rh * target.height) (hm : source.maps = target.maps)
    (hsm : source.samples = target.samples) :
    ∃ u, down source target rw rh factor = some u ∧ Sh target u ∧ u.WF ∧
      ∀ x y m s, target.InRange x y m s →
        u.get x y m s = some (regionUp (fun ry rx => source.val (rw * x + rx) (rh * y + ry) m s) rh rw * factor) := by
  unfold down
  let v : Nat → Nat → Nat → Nat → R := fun x y m s =>
    regionUp (fun ry rx => source.val (rw * x + rx) (rh * y + ry) m s) rh rw * factor
  rw [forLoop_puts (t0 := target) (fun s => (List.range target.maps).flatMap fun m =>
    (List.range target.height).flatMap fun y => (List.range target.width).flatMap fun x =>
      [(target.offset x y m s, v x y m s)]) (Sh.rfl' target)]
  · obtain ⟨u, h1, h2, h3, h4, _⟩ := puts_coord ht
      (es := (List.range target.samples).flatMap fun s => (List.range target.maps).flatMap fun m =>
        (List.range target.height).flatMap fun y => (List.range target.width).flatMap fun x =>
          [(target.offset x y m s, v x y m s)])
      (R := fun x y m s => target.InRange x y m s) (val := fun x y m s => some (v x y m s))
      (fun x y m s h => ⟨h, rfl⟩) (by
        intro i w
        simp only [List.mem_flatMap, List.mem_range, List.mem_singleton, Prod.mk.injEq,
          Option.some.injEq, InRange]
        constructor
        · rintro ⟨s, hs, m, hm, y, hy, x, hx, rfl, rfl⟩
          exact ⟨x, y, m, s, ⟨hx, hy, hm, hs⟩, rfl, rfl⟩
        · rintro ⟨x, y, m, s, ⟨hx, hy, hm, hs⟩, rfl, rfl⟩
          exact ⟨s, hs, m, hm, y, hy, x, hx, rfl, rfl⟩)
    exact ⟨u, h1, h2, h3, h4⟩
  · intro s u hs' hu
    refine forLoop_puts _ hu ?_
    intro m u hm' hu
    refine forLoop_puts _ hu ?_
    intro y u hy hu
    refine forLoop_puts _ hu ?_
    intro x u hx hu
    have hsum : forLoop rh (fun ry => forLoop rw (fun rx sum =>
        (source.get (rw * x + rx) (rh * y + ry) m s).map fun v => sum + v)) 0 =
        some (regionUp (fun ry rx => source.val (rw * x + rx) (rh * y + ry) m s) rh rw) := by
      refine forLoop_fold _ _ (fun ry a => addUp (fun rx => source.val (rw * x + rx) (rh * y + ry) m s) rw a) _ ?_
      intro ry a hry
      refine forLoop_fold _ _ (fun rx a => a + source.val (rw * x + rx) (rh * y + ry) m s) _ ?_
      intro rx a hrx
      rw [get_eq_val hs]
      · rfl
      · have e1 := radix_lt (a := x) (b := target.width) (n := rw) (x := rx) hx hrx
        have e2 := radix_lt (a := y) (b := target.height) (n := rh) (x := ry) hy hry
        rw [Nat.mul_comm x, Nat.mul_comm target.width] at e1
        rw [Nat.mul_comm y, Nat.mul_comm target.height] at e2
        exact ⟨by omega, by omega, by omega, by omega⟩
    rw [hsum, Option.bind_some, put_eq_puts hu]

end

theorem addUp_approx {p e : Nat} (hp : 1 ≤ p) (v : Nat → Flt p e) (n : Nat) {a : Flt p e} {x A : ℚ} {c : Nat}
    (ha : Flt.Approx a x A c 0) :
    Flt.Approx (addUp v n a) (x + ∑ k ∈ Finset.range n, (v k).value) (A + ∑ k ∈ Finset.range n, |(v k).value|) (c + n) 0 := by
  induction n with
  | zero => simpa [addUp] using ha
  | succ n ih =>
    have h := ih.add hp ((Flt.Approx.exact (v n)).mono (c' := c + n) (by omega) (le_refl 0))
    unfold addUp at h ⊢
    rw [List.range_succ, List.foldl_append, Finset.sum_range_succ, Finset.sum_range_succ, ← add_assoc, ← add_assoc]
    rw [add_zero, mul_zero] at h
    exact h

theorem regionUp_approx {p e : Nat} (hp : 1 ≤ p) (v : Nat → Nat → Flt p e) (rh rw : Nat) :
    Flt.Approx (regionUp v rh rw) (∑ j ∈ Finset.range rh, ∑ i ∈ Finset.range rw, (v j i).value)
      (∑ j ∈ Finset.range rh, ∑ i ∈ Finset.range rw, |(v j i).value|) (rh * rw) 0 := by
  induction rh with
  | zero =>
    refine ⟨?_, by simp, le_refl _⟩
    show |(0 : Flt p e).value - _| ≤ _
    rw [Flt.value_zero]; simp
  | succ n ih =>
    have h := addUp_approx hp (v n) rw ih
    unfold regionUp at h ⊢
    rw [List.range_succ, List.foldl_append, Finset.sum_range_succ, Finset.sum_range_succ, Nat.succ_mul]
    exact h

/-- The mean of a region in single precision. -/
theorem mean_err (v : Nat → Nat → Single) {rh rw : Nat} (hw : 0 < rw) (hh : 0 < rh) (hN : rw * rh ≤ 2 ^ 23) {M : ℚ} (hM : 0 ≤ M)
    (hv : ∀ j i, j < rh → i < rw → |(v j i).value| ≤ M) :
    |(regionUp v rh rw * ((1 : Single) / ((rw : Single) * (rh : Single)))).value -
      (∑ j ∈ Finset.range rh, ∑ i ∈ Finset.range rw, (v j i).value) / ((rw : ℚ) * rh)| ≤
      ((rw : ℚ) * rh + 3) / 2 ^ 23 * M + 1 / 2 ^ 150 := by
  have hS := regionUp_approx (p := 24) (e := 149) (by norm_num) v rh rw
  have hF := factor_err hw hh hN
  have hR := Flt.mul_err (p := 24) (e := 149) (by norm_num) (regionUp v rh rw) ((1 : Single) / ((rw : Single) * (rh : Single)))
  obtain ⟨hSe, -, -⟩ := hS
  have hA : ∑ j ∈ Finset.range rh, ∑ i ∈ Finset.range rw, |(v j i).value| ≤ (rw : ℚ) * rh * M := by
    calc _ ≤ ∑ j ∈ Finset.range rh, ∑ i ∈ Finset.range rw, M :=
          Finset.sum_le_sum fun j hj => Finset.sum_le_sum fun i hi => hv j i (Finset.mem_range.1 hj) (Finset.mem_range.1 hi)
      _ = _ := by simp; ring
  have hT : |∑ j ∈ Finset.range rh, ∑ i ∈ Finset.range rw, (v j i).value| ≤ (rw : ℚ) * rh * M :=
    ((Finset.abs_sum_le_sum_abs _ _).trans (Finset.sum_le_sum fun j _ => Finset.abs_sum_le_sum_abs _ _)).trans hA
  have hN0 : (0 : ℚ) < (rw : ℚ) * rh := by positivity
  have hN1 : (rw : ℚ) * rh ≤ 2 ^ 23 := by exact_mod_cast hN
  have hpow := Flt.pow_le_two_mul 24 (rh * rw) (by
    unfold Flt.ulp
    push_cast
    rw [mul_comm (rh : ℚ)]
    calc _ ≤ (2 : ℚ) ^ 23 * (1 / 2 ^ 24) := by gcongr
      _ = _ := by norm_num)
  have hpow1 := Flt.pow_ge 24 (rh * rw)
  push_cast at hpow
  unfold Flt.ulp at hR hSe hpow hpow1
  unfold Flt.tiny at hR
  generalize (regionUp v rh rw * ((1 : Single) / ((rw : Single) * (rh : Single)))).value = r at *
  generalize (regionUp v rh rw).value = S at *
  generalize ((1 : Single) / ((rw : Single) * (rh : Single))).value = φ at *
  generalize (∑ j ∈ Finset.range rh, ∑ i ∈ Finset.range rw, |(v j i).value|) = A at *
  generalize (∑ j ∈ Finset.range rh, ∑ i ∈ Finset.range rw, (v j i).value) = T at *
  generalize (1 + 1 / (2 : ℚ) ^ 24) ^ (rh * rw) = P at *
  have hmul : (2 : ℚ) * ((rh : ℚ) * rw) * (1 / 2 ^ 24) = (rw : ℚ) * rh / 2 ^ 23 := by ring
  rw [hmul] at hpow
  generalize (rw : ℚ) * rh = N at *
  -- the sum
  have e1 : |S - T| ≤ N / 2 ^ 23 * (N * M) := by
    have : (P - 1) * A ≤ N / 2 ^ 23 * (N * M) := by
      have : 0 ≤ N / 2 ^ 23 := by positivity
      have : 0 ≤ N * M := by positivity
      nlinarith [hpow1]
    linarith
  have hNl : N / 2 ^ 23 ≤ 1 := by rw [div_le_one (by positivity)]; exact hN1
  have hNM : 0 ≤ N * M := by positivity
  have e2 : |S| ≤ 2 * (N * M) := by
    have h := abs_add_le (S - T) T
    rw [sub_add_cancel] at h
    have : N / 2 ^ 23 * (N * M) ≤ 1 * (N * M) := by gcongr
    linarith
  -- the factor
  have hi0 : 0 < 1 / N := by positivity
  have e3 : |φ| ≤ (1 + 1 / 2 ^ 24) * (1 / N) + 1 / 2 ^ 150 := by
    have h := abs_add_le (φ - 1 / N) (1 / N)
    rw [sub_add_cancel, abs_of_pos hi0] at h
    linarith
  have hNi : N * (1 / N) = 1 := by field_simp
  have e4 : |S * φ| ≤ 2 * M * (1 + 1 / 2 ^ 24) + 2 * (N * M) / 2 ^ 150 := by
    rw [abs_mul]
    calc |S| * |φ| ≤ 2 * (N * M) * ((1 + 1 / 2 ^ 24) * (1 / N) + 1 / 2 ^ 150) := by gcongr
      _ = 2 * M * (1 + 1 / 2 ^ 24) * (N * (1 / N)) + 2 * (N * M) / 2 ^ 150 := by ring
      _ = _ := by rw [hNi]; ring
  have e5 : |S * φ - S * (1 / N)| ≤ 2 * M / 2 ^ 24 + 2 * (N * M) / 2 ^ 150 := by
    rw [← mul_sub, abs_mul]
    calc |S| * |φ - 1 / N| ≤ 2 * (N * M) * (1 / 2 ^ 24 * (1 / N) + 1 / 2 ^ 150) := by gcongr
      _ = 2 * M / 2 ^ 24 * (N * (1 / N)) + 2 * (N * M) / 2 ^ 150 := by ring
      _ = _ := by rw [hNi]; ring
  have e6 : |S * (1 / N) - T / N| ≤ N / 2 ^ 23 * M := by
    rw [show S * (1 / N) - T / N = (S - T) * (1 / N) by ring, abs_mul, abs_of_pos hi0]
    calc |S - T| * (1 / N) ≤ N / 2 ^ 23 * (N * M) * (1 / N) := by gcongr
      _ = N / 2 ^ 23 * M * (N * (1 / N)) := by ring
      _ = _ := by rw [hNi]; ring
  have h1 := abs_add_le (r - S * φ) (S * φ - S * (1 / N))
  have h2 := abs_add_le (r - S * φ + (S * φ - S * (1 / N))) (S * (1 / N) - T / N)
  rw [show r - S * φ + (S * φ - S * (1 / N)) + (S * (1 / N) - T / N) = r - T / N by ring] at h2
  have hNM2 : N * M ≤ 2 ^ 23 * M := by gcongr
  have h4 : 1 / 2 ^ 24 * |S * φ| ≤ 1 / 2 ^ 24 * (2 * M * (1 + 1 / 2 ^ 24) + 2 * (N * M) / 2 ^ 150) := by gcongr
  have h3 : (N + 3) / 2 ^ 23 * M = N / 2 ^ 23 * M + 3 / 2 ^ 23 * M := by ring
  rw [h3]
  norm_num at *
  linarith

end CN24.RoundingNet
