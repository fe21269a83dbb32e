import Verif.Model.QuickRounding
import Verif.Props.StepRounding

/-
C108: QuickProp in single precision never steps uphill and limits the growth of its steps.
-/

namespace CN24.QuickRounding
open CN24 CN24.Flt

/-! ### The step of the trainer model -/

section
variable {R : Type _} [Field R] [LinearOrder R] [IsStrictOrderedRing R]

theorem absolute_eq (a : R) : absolute a = |a| := by
  unfold absolute
  split
  · rename_i h; rw [abs_of_neg h]
  · rename_i h; rw [abs_of_nonneg (not_lt.1 h)]

/-- The step is the one of the trainer model (C26). -/
theorem C108_rule (mu lr : R) (first : Bool) (slope lastSlope lastStep : R) :
    Trainer.quickStep mu lr first slope lastSlope lastStep =
      quickStep ⟨1 / 10, 1 / 10 ^ 15, mu⟩ lr first slope lastSlope lastStep := by
  unfold Trainer.quickStep quickStep quadratic Parabola
  simp only [absolute_eq]
  cases first
  · simp only [Bool.false_eq_true, if_false]
    by_cases h : |slope| ≤ 1 / 10 ^ 15
    · rw [if_pos h, if_neg (not_lt.2 h)]
    · rw [if_neg h, if_pos (not_le.1 h)]
      rfl
  · rfl
end

/-! ### Signs of results -/

theorem units_value (a : Single) : a.value = (a.units : ℚ) / 2 ^ 149 := rfl

theorem value_nonneg (a : Single) : 0 ≤ a.value ↔ 0 ≤ a.units := by
  rw [units_value, le_div_iff₀ (by positivity), zero_mul]
  exact Int.cast_nonneg_iff

theorem value_nonpos (a : Single) : a.value ≤ 0 ↔ a.units ≤ 0 := by
  rw [units_value, div_le_iff₀ (by positivity), zero_mul]
  exact Int.cast_nonpos

theorem mul_units (a b : Single) : (0 ≤ a.units * b.units → 0 ≤ (a * b).units) ∧ (a.units * b.units ≤ 0 → (a * b).units ≤ 0) := by
  show (0 ≤ a.units * b.units → 0 ≤ (if 0 ≤ a.units * b.units then (roundProduct 24 149 (a.units * b.units).toNat : Int)
    else -roundProduct 24 149 (-(a.units * b.units)).toNat)) ∧ (a.units * b.units ≤ 0 →
      (if 0 ≤ a.units * b.units then (roundProduct 24 149 (a.units * b.units).toNat : Int)
    else -roundProduct 24 149 (-(a.units * b.units)).toNat) ≤ 0)
  refine ⟨fun h => by rw [if_pos h]; positivity, fun h => ?_⟩
  split
  · rename_i h'
    rw [show a.units * b.units = 0 by omega]
    decide +kernel
  · omega

theorem value_mul_pos {a b : Single} (h : 0 ≤ a.value * b.value) : 0 ≤ (a * b).value := by
  rw [value_nonneg]
  refine (mul_units a b).1 ?_
  rw [units_value, units_value, div_mul_div_comm, le_div_iff₀ (by positivity), zero_mul] at h
  exact_mod_cast h

theorem value_mul_neg {a b : Single} (h : a.value * b.value ≤ 0) : (a * b).value ≤ 0 := by
  rw [value_nonpos]
  refine (mul_units a b).2 ?_
  rw [units_value, units_value, div_mul_div_comm, div_le_iff₀ (by positivity), zero_mul] at h
  exact_mod_cast h

theorem sign_nonneg {i : Int} (h : 0 ≤ i) : 0 ≤ i.sign := Int.sign_nonneg_iff.2 h
theorem sign_nonpos {i : Int} (h : i ≤ 0) : i.sign ≤ 0 := Int.sign_nonpos_iff.2 h

theorem value_div_pos {a b : Single} (h : 0 ≤ a.value * b.value) : 0 ≤ (a / b).value := by
  rw [value_nonneg]
  show 0 ≤ a.units.sign * b.units.sign * (roundQuotient 24 (a.units.natAbs * 2 ^ 149) b.units.natAbs : Int)
  have h' : 0 ≤ a.units * b.units := by
    rw [units_value, units_value, div_mul_div_comm, le_div_iff₀ (by positivity), zero_mul] at h
    exact_mod_cast h
  rw [← Int.sign_mul]
  exact mul_nonneg (sign_nonneg h') (by positivity)

theorem value_div_neg {a b : Single} (h : a.value * b.value ≤ 0) : (a / b).value ≤ 0 := by
  rw [value_nonpos]
  show a.units.sign * b.units.sign * (roundQuotient 24 (a.units.natAbs * 2 ^ 149) b.units.natAbs : Int) ≤ 0
  have h' : a.units * b.units ≤ 0 := by
    rw [units_value, units_value, div_mul_div_comm, div_le_iff₀ (by positivity), zero_mul] at h
    exact_mod_cast h
  rw [← Int.sign_mul]
  exact mul_nonpos_of_nonpos_of_nonneg (sign_nonpos h') (by positivity)

theorem value_sub_pos {a b : Single} (h : b.value ≤ a.value) : 0 ≤ (a - b).value := by
  rw [value_nonneg]
  have h' : b.units ≤ a.units := by
    rw [units_value, units_value, div_le_div_iff_of_pos_right (by positivity)] at h
    exact_mod_cast h
  show 0 ≤ (if 0 ≤ a.units - b.units then (roundBits 24 (a.units - b.units).toNat : Int) else -roundBits 24 (-(a.units - b.units)).toNat)
  rw [if_pos (by omega)]
  positivity

theorem value_sub_neg {a b : Single} (h : a.value ≤ b.value) : (a - b).value ≤ 0 := by
  rw [value_nonpos]
  have h' : a.units ≤ b.units := by
    rw [units_value, units_value, div_le_div_iff_of_pos_right (by positivity)] at h
    exact_mod_cast h
  show (if 0 ≤ a.units - b.units then (roundBits 24 (a.units - b.units).toNat : Int) else -roundBits 24 (-(a.units - b.units)).toNat) ≤ 0
  split
  · rw [show a.units - b.units = 0 by omega]
    decide +kernel
  · omega

theorem absolute_value (a : Single) : (absolute a).value = |a.value| := by
  unfold absolute
  split
  · rename_i h
    rw [value_neg, abs_of_neg ((StepRounding.value_neg_iff a).2 h)]
  · rename_i h
    rw [abs_of_nonneg (not_lt.1 fun h' => h ((StepRounding.value_neg_iff a).1 h'))]

theorem value_lt (a b : Single) : a < b ↔ a.value < b.value := by
  rw [units_value, units_value, div_lt_div_iff_of_pos_right (by positivity), Int.cast_lt]
  exact Iff.rfl

theorem sgn_cases (a : Single) : (0 < a.value ∧ sgn a = 1) ∨ (a.value = 0 ∧ sgn a = 0) ∨ (a.value < 0 ∧ sgn a = -1) := by
  unfold sgn
  simp only [← StepRounding.value_pos_iff, ← StepRounding.value_neg_iff]
  rcases lt_trichotomy a.value 0 with h | h | h
  · exact Or.inr (Or.inr ⟨h, by rw [if_neg (not_lt.2 h.le), if_pos h]; rfl⟩)
  · exact Or.inr (Or.inl ⟨h, by rw [if_neg (by rw [h]; exact lt_irrefl _), if_neg (by rw [h]; exact lt_irrefl _)]; rfl⟩)
  · exact Or.inl ⟨h, by rw [if_pos h, if_neg (not_lt.2 h.le)]; rfl⟩

/-- The step does not lead uphill. -/
def Downhill (step slope : Single) : Prop := step.value * slope.value ≤ 0

theorem parabola_downhill {r : Rule Single} {slope lastSlope lastStep : Single} (h : Parabola r slope lastSlope lastStep) :
    Downhill (lastStep * slope / (lastSlope - slope)) slope := by
  obtain ⟨h1, h2⟩ := h
  rw [value_lt, absolute_value, absolute_value] at h1
  have hd : (lastSlope - slope).value ≠ 0 := by
    intro e
    have := value_mul_pos (a := r.mu) (b := lastSlope - slope) (by rw [e, mul_zero])
    have := value_mul_neg (a := r.mu) (b := lastSlope - slope) (by rw [e, mul_zero])
    rw [show (r.mu * (lastSlope - slope)).value = 0 by linarith, abs_zero] at h1
    exact absurd h1 (not_lt.2 (abs_nonneg _))
  generalize lastSlope - slope = d at *
  have hs : lastStep.value * d.value ≤ 0 := by
    rcases sgn_cases lastStep with ⟨a, a'⟩ | ⟨a, a'⟩ | ⟨a, a'⟩ <;> rcases sgn_cases d with ⟨b, b'⟩ | ⟨b, b'⟩ | ⟨b, b'⟩ <;>
      first
        | exact absurd (a'.trans b'.symm) h2
        | (rw [a]; simp; done)
        | (rw [b]; simp; done)
        | nlinarith
  unfold Downhill
  rcases le_total 0 slope.value with hc | hc <;> rcases le_total 0 d.value with hd' | hd'
  · have h0 : lastStep.value ≤ 0 := by
      rcases hd'.lt_or_eq with h | h
      · nlinarith
      · exact absurd h.symm hd
    have h3 := value_mul_neg (a := lastStep) (b := slope) (by nlinarith)
    have h4 := value_div_neg (a := lastStep * slope) (b := d) (by nlinarith)
    nlinarith
  · have h0 : 0 ≤ lastStep.value := by
      rcases hd'.lt_or_eq with h | h
      · nlinarith
      · exact absurd h hd
    have h3 := value_mul_pos (a := lastStep) (b := slope) (by nlinarith)
    have h4 := value_div_neg (a := lastStep * slope) (b := d) (by nlinarith)
    nlinarith
  · have h0 : lastStep.value ≤ 0 := by
      rcases hd'.lt_or_eq with h | h
      · nlinarith
      · exact absurd h.symm hd
    have h3 := value_mul_pos (a := lastStep) (b := slope) (by nlinarith)
    have h4 := value_div_pos (a := lastStep * slope) (b := d) (by nlinarith)
    nlinarith
  · have h0 : 0 ≤ lastStep.value := by
      rcases hd'.lt_or_eq with h | h
      · nlinarith
      · exact absurd h hd
    have h3 := value_mul_neg (a := lastStep) (b := slope) (by nlinarith)
    have h4 := value_div_pos (a := lastStep * slope) (b := d) (by nlinarith)
    nlinarith

/-- Where the last step leads uphill on the current slope, the parabola is used. -/
theorem parabola_used {r : Rule Single} (hmu : 1 + 1 / 2 ^ 20 ≤ r.mu.value) {slope lastSlope lastStep : Single}
    (hc : 1 / 2 ^ 50 < |slope.value|) (hl : lastStep.value * lastSlope.value ≤ 0) (hup : 0 < lastStep.value * slope.value) :
    Parabola r slope lastSlope lastStep := by
  have hopp : lastSlope.value * slope.value ≤ 0 := by
    by_contra hcon
    push Not at hcon
    have h1 : 0 < (lastStep.value * slope.value) * (lastSlope.value * slope.value) := mul_pos hup hcon
    have h2 : (lastStep.value * slope.value) * (lastSlope.value * slope.value) =
      (lastStep.value * lastSlope.value) * (slope.value * slope.value) := by ring
    have h3 : (lastStep.value * lastSlope.value) * (slope.value * slope.value) ≤ 0 :=
      mul_nonpos_of_nonpos_of_nonneg hl (mul_self_nonneg _)
    linarith
  have hsub := sub_err (p := 24) (by norm_num) lastSlope slope
  have hmul := mul_err (p := 24) (by norm_num) r.mu (lastSlope - slope)
  have hbig : |slope.value| ≤ |lastSlope.value - slope.value| := by
    rw [← sq_le_sq]
    nlinarith
  have hu : ulp 24 = 1 / 2 ^ 24 := rfl
  have ht : tiny 149 ≤ |slope.value| / 2 ^ 30 := by
    unfold tiny
    rw [le_div_iff₀ (by positivity)]
    exact le_trans (by norm_num) hc.le
  rw [hu] at hsub hmul
  have hd : (1 - 1 / 2 ^ 24) * |slope.value| ≤ |(lastSlope - slope).value| := by
    have := abs_sub_abs_le_abs_sub (lastSlope.value - slope.value) (lastSlope - slope).value
    rw [abs_sub_comm (lastSlope.value - slope.value) (lastSlope - slope).value] at this
    linarith
  have hm : (1 - 1 / 2 ^ 24) * (r.mu.value * |(lastSlope - slope).value|) - tiny 149 ≤ |(r.mu * (lastSlope - slope)).value| := by
    have := abs_sub_abs_le_abs_sub (r.mu.value * (lastSlope - slope).value) (r.mu * (lastSlope - slope)).value
    rw [abs_sub_comm (r.mu.value * (lastSlope - slope).value) (r.mu * (lastSlope - slope)).value] at this
    rw [abs_mul, abs_of_nonneg (by linarith [show (0 : ℚ) < 1 / 2 ^ 20 by positivity] : 0 ≤ r.mu.value)] at this hmul
    linarith
  refine ⟨?_, ?_⟩
  · rw [value_lt, absolute_value, absolute_value]
    have h1 : (1 + 1 / 2 ^ 20) * ((1 - 1 / 2 ^ 24) * |slope.value|) ≤ r.mu.value * |(lastSlope - slope).value| :=
      mul_le_mul hmu hd (mul_nonneg (by norm_num) (abs_nonneg _)) (by linarith [show (0 : ℚ) < 1 / 2 ^ 20 by positivity])
    have h0 : (0 : ℚ) < |slope.value| := lt_trans (by positivity) hc
    norm_num at h1 hm ht ⊢
    linarith
  · intro e
    have hne : slope.value ≠ 0 := fun h => by rw [h, mul_zero] at hup; exact lt_irrefl _ hup
    rcases lt_or_gt_of_ne hne with h | h
    · have h1 : lastStep.value < 0 := by
        by_contra hcon
        nlinarith
      have h2 : 0 ≤ lastSlope.value := by
        by_contra hcon
        nlinarith
      have h3 := value_sub_pos (a := lastSlope) (b := slope) (by linarith)
      rcases sgn_cases lastStep with ⟨a, a'⟩ | ⟨a, a'⟩ | ⟨a, a'⟩ <;> rcases sgn_cases (lastSlope - slope) with ⟨b, b'⟩ | ⟨b, b'⟩ | ⟨b, b'⟩ <;>
        linarith
    · have h1 : 0 < lastStep.value := by
        by_contra hcon
        nlinarith
      have h2 : lastSlope.value ≤ 0 := by
        by_contra hcon
        nlinarith
      have h3 := value_sub_neg (a := lastSlope) (b := slope) (by linarith)
      rcases sgn_cases lastStep with ⟨a, a'⟩ | ⟨a, a'⟩ | ⟨a, a'⟩ <;> rcases sgn_cases (lastSlope - slope) with ⟨b, b'⟩ | ⟨b, b'⟩ | ⟨b, b'⟩ <;>
        linarith

/-- One step: if the last step did not lead uphill on the last slope, the next one does not lead uphill on the current slope. -/
theorem C108_step (r : Rule Single) (hz : 0 ≤ r.zero.value) (hf : 1 / 2 ^ 50 ≤ r.flat.value) (hmu : 1 + 1 / 2 ^ 20 ≤ r.mu.value)
    (lr : Single) (hlr : 0 ≤ lr.value) (first : Bool) (slope lastSlope lastStep : Single) (hl : Downhill lastStep lastSlope) :
    Downhill (quickStep r lr first slope lastSlope lastStep) slope := by
  have hmu0 : 0 ≤ r.mu.value := by linarith [show (0 : ℚ) < 1 / 2 ^ 20 by positivity]
  unfold quickStep
  split
  · unfold Downhill
    rcases le_total 0 slope.value with h | h
    · have := value_mul_neg (a := -r.zero) (b := slope) (by rw [value_neg]; nlinarith)
      nlinarith
    · have := value_mul_pos (a := -r.zero) (b := slope) (by rw [value_neg]; nlinarith)
      nlinarith
  · split
    · rename_i _ hflat
      rw [value_lt, absolute_value] at hflat
      have hq : Downhill (quadratic r slope lastSlope lastStep) slope := by
        unfold quadratic
        split
        · rename_i h; exact parabola_downhill h
        · rename_i h
          have hdn : lastStep.value * slope.value ≤ 0 := by
            by_contra hcon
            exact h (parabola_used hmu (hf.trans_lt hflat) hl (not_le.1 hcon))
          unfold Downhill
          rcases le_total 0 slope.value with hs | hs
          · rcases le_total lastStep.value 0 with hx | hx
            · have := value_mul_neg (a := r.mu) (b := lastStep) (by nlinarith)
              nlinarith
            · rcases hs.lt_or_eq with hs' | hs'
              · have hx0 : lastStep.value = 0 := by nlinarith
                have := value_mul_neg (a := r.mu) (b := lastStep) (by rw [hx0, mul_zero])
                nlinarith
              · rw [← hs', mul_zero]
          · rcases le_total 0 lastStep.value with hx | hx
            · have := value_mul_pos (a := r.mu) (b := lastStep) (by nlinarith)
              nlinarith
            · rcases hs.lt_or_eq with hs' | hs'
              · have hx0 : lastStep.value = 0 := by nlinarith
                have := value_mul_pos (a := r.mu) (b := lastStep) (by rw [hx0, mul_zero])
                nlinarith
              · rw [hs', mul_zero]
      split
      · unfold Downhill at hq ⊢
        rcases lt_trichotomy slope.value 0 with hs | hs | hs
        · have h1 := value_mul_neg (a := lr) (b := slope) (by nlinarith)
          have h2 : 0 ≤ (quadratic r slope lastSlope lastStep).value := by
            by_contra hcon
            nlinarith
          have := value_sub_pos (a := quadratic r slope lastSlope lastStep) (b := lr * slope) (by linarith)
          nlinarith
        · rw [hs, mul_zero]
        · have h1 := value_mul_pos (a := lr) (b := slope) (by positivity)
          have h2 : (quadratic r slope lastSlope lastStep).value ≤ 0 := by
            by_contra hcon
            nlinarith
          have := value_sub_neg (a := quadratic r slope lastSlope lastStep) (b := lr * slope) (by linarith)
          nlinarith
      · exact hq
    · unfold Downhill
      rcases le_total 0 slope.value with h | h
      · have := value_mul_neg (a := -slope) (b := lr) (by rw [value_neg]; nlinarith)
        nlinarith
      · have := value_mul_pos (a := -slope) (b := lr) (by rw [value_neg]; nlinarith)
        nlinarith

/-- In no history of learning rates and slopes does a step lead uphill: the steps pair up with the slopes. -/
theorem C108_downhill_partial (r : Rule Single) (hz : 0 ≤ r.zero.value) (hf : 1 / 2 ^ 50 ≤ r.flat.value)
    (hmu : 1 + 1 / 2 ^ 20 ≤ r.mu.value) (first : Bool) (hs : List (Single × Single)) (hlr : ∀ h ∈ hs, 0 ≤ h.1.value)
    (lastSlope lastStep : Single) (hl : lastStep.value * lastSlope.value ≤ 0) :
    (steps r first lastSlope lastStep hs).length = hs.length ∧
      ∀ p ∈ (steps r first lastSlope lastStep hs).zip hs, p.1.value * p.2.2.value ≤ 0 := by
  induction hs generalizing first lastSlope lastStep with
  | nil => exact ⟨rfl, fun p hp => by cases hp⟩
  | cons h hs ih =>
    have h1 := C108_step r hz hf hmu h.1 (hlr h (List.mem_cons_self ..)) first h.2 lastSlope lastStep hl
    obtain ⟨h2, h3⟩ := ih false (fun h' hh => hlr h' (List.mem_cons_of_mem _ hh)) h.2 _ h1
    refine ⟨by show _ + 1 = _ + 1; rw [h2], ?_⟩
    intro p hp
    rcases List.mem_cons.1 hp with rfl | hp
    · exact h1
    · exact h3 p hp

/-! ### The growth of steps -/

theorem div_neg_flt (a b : Single) : a / -b = -(a / b) := by
  show (⟨a.units.sign * (-b.units).sign * (roundQuotient 24 (a.units.natAbs * 2 ^ 149) (-b.units).natAbs : Int)⟩ : Single) =
    ⟨-(a.units.sign * b.units.sign * (roundQuotient 24 (a.units.natAbs * 2 ^ 149) b.units.natAbs : Int))⟩
  rw [Int.sign_neg, Int.natAbs_neg]
  congr 1
  ring

theorem div_size (a b : Single) (hb : b.value ≠ 0) : |(a / b).value| ≤ (1 + 1 / 2 ^ 24) * (|a.value| / |b.value|) + 1 / 2 ^ 150 := by
  have key : ∀ b : Single, 0 < b.value → |(a / b).value| ≤ (1 + 1 / 2 ^ 24) * (|a.value| / |b.value|) + 1 / 2 ^ 150 := by
    intro b hb
    have h := (Approx.div (p := 24) (by norm_num) a b ((StepRounding.value_pos_iff b).1 hb)).err
    have h2 := abs_sub_abs_le_abs_sub (a / b).value (a.value / b.value)
    rw [pow_one, abs_div a.value b.value] at h
    rw [abs_div a.value b.value] at h2
    have hu : ulp 24 = 1 / 2 ^ 24 := rfl
    have ht : tiny 149 = 1 / 2 ^ 150 := rfl
    rw [hu, ht] at h
    linarith
  rcases lt_or_gt_of_ne hb with h | h
  · have := key (-b) (by rw [value_neg]; linarith)
    rwa [div_neg_flt, value_neg, value_neg, abs_neg, abs_neg] at this
  · exact key b h

theorem mul_size (a b : Single) : |(a * b).value| ≤ (1 + 1 / 2 ^ 24) * (|a.value| * |b.value|) + 1 / 2 ^ 150 := by
  have h := mul_err (p := 24) (by norm_num) a b
  have h2 := abs_sub_abs_le_abs_sub (a * b).value (a.value * b.value)
  rw [abs_mul a.value b.value] at h h2
  have hu : ulp 24 = 1 / 2 ^ 24 := rfl
  have ht : tiny 149 = 1 / 2 ^ 150 := rfl
  rw [hu, ht] at h
  linarith

theorem sub_size (a b : Single) : |(a - b).value| ≤ (1 + 1 / 2 ^ 24) * (|a.value| + |b.value|) := by
  have h := sub_err (p := 24) (by norm_num) a b
  have h2 := abs_sub_abs_le_abs_sub (a - b).value (a.value - b.value)
  have h3 := abs_sub a.value b.value
  have hu : ulp 24 = 1 / 2 ^ 24 := rfl
  rw [hu] at h
  linarith

theorem quadratic_size (r : Rule Single) (slope lastSlope lastStep : Single) (hc : 1 / 2 ^ 50 ≤ |slope.value|) :
    |(quadratic r slope lastSlope lastStep).value| ≤
      (1 + 1 / 2 ^ 22) * (|r.mu.value| * |lastStep.value|) + |r.mu.value| / 2 ^ 98 + 1 / 2 ^ 149 := by
  have hm := abs_nonneg r.mu.value
  have hl := abs_nonneg lastStep.value
  have hml : 0 ≤ |r.mu.value| * |lastStep.value| := mul_nonneg hm hl
  unfold quadratic
  split
  · rename_i h
    have h1 := h.1
    rw [value_lt, absolute_value, absolute_value] at h1
    have h2 := mul_size r.mu (lastSlope - slope)
    have hd0 : (lastSlope - slope).value ≠ 0 := by
      intro e
      rw [e, abs_zero, mul_zero, mul_zero, zero_add] at h2
      have : (1 : ℚ) / 2 ^ 150 ≤ 1 / 2 ^ 50 := by norm_num
      linarith
    have h3 := div_size (lastStep * slope) (lastSlope - slope) hd0
    have h4 := mul_size lastStep slope
    generalize lastSlope - slope = d at *
    have hd : 0 < |d.value| := abs_pos.2 hd0
    have hinv : 1 / |d.value| ≤ 2 ^ 51 * |r.mu.value| := by
      rw [div_le_iff₀ hd]
      norm_num at *
      nlinarith
    have hratio : |slope.value| / |d.value| ≤ (1 + 1 / 2 ^ 24) * |r.mu.value| + |r.mu.value| / 2 ^ 99 := by
      have e1 : |slope.value| / |d.value| ≤ ((1 + 1 / 2 ^ 24) * (|r.mu.value| * |d.value|) + 1 / 2 ^ 150) / |d.value| :=
        div_le_div_of_nonneg_right (h1.le.trans h2) hd.le
      have e2 : ((1 + 1 / 2 ^ 24) * (|r.mu.value| * |d.value|) + 1 / 2 ^ 150) / |d.value| =
          (1 + 1 / 2 ^ 24) * |r.mu.value| + 1 / 2 ^ 150 * (1 / |d.value|) := by field_simp
      rw [e2] at e1
      norm_num at *
      linarith
    have hp : |(lastStep * slope).value| / |d.value| ≤
        (1 + 1 / 2 ^ 24) * (|lastStep.value| * ((1 + 1 / 2 ^ 24) * |r.mu.value| + |r.mu.value| / 2 ^ 99)) + |r.mu.value| / 2 ^ 99 := by
      have e1 : |(lastStep * slope).value| / |d.value| ≤
          ((1 + 1 / 2 ^ 24) * (|lastStep.value| * |slope.value|) + 1 / 2 ^ 150) / |d.value| :=
        div_le_div_of_nonneg_right h4 hd.le
      have e2 : ((1 + 1 / 2 ^ 24) * (|lastStep.value| * |slope.value|) + 1 / 2 ^ 150) / |d.value| =
          (1 + 1 / 2 ^ 24) * (|lastStep.value| * (|slope.value| / |d.value|)) + 1 / 2 ^ 150 * (1 / |d.value|) := by field_simp
      rw [e2] at e1
      have e3 := mul_le_mul_of_nonneg_left hratio hl
      norm_num at *
      linarith
    rw [show |lastStep.value| * ((1 + 1 / 2 ^ 24) * |r.mu.value| + |r.mu.value| / 2 ^ 99) =
      ((1 + 1 / 2 ^ 24) + 1 / 2 ^ 99) * (|r.mu.value| * |lastStep.value|) by ring] at hp
    generalize |r.mu.value| * |lastStep.value| = A at *
    clear h4 hratio
    norm_num at *
    linarith [abs_nonneg r.mu.value]
  · have h := mul_size r.mu lastStep
    generalize |r.mu.value| * |lastStep.value| = A at *
    norm_num at *
    linarith [abs_nonneg r.mu.value]

/-- A step is not much larger than `mu` times the last one plus the step of gradient descent. -/
theorem C108_limited (r : Rule Single) (hf : 1 / 2 ^ 50 ≤ r.flat.value) (lr slope lastSlope lastStep : Single) :
    |(quickStep r lr false slope lastSlope lastStep).value| ≤
      (1 + 1 / 2 ^ 21) * (|r.mu.value| * |lastStep.value| + |lr.value| * |slope.value|) + |r.mu.value| / 2 ^ 97 + 1 / 2 ^ 147 := by
  have hml : 0 ≤ |r.mu.value| * |lastStep.value| := mul_nonneg (abs_nonneg _) (abs_nonneg _)
  have hls : 0 ≤ |lr.value| * |slope.value| := mul_nonneg (abs_nonneg _) (abs_nonneg _)
  have hm := abs_nonneg r.mu.value
  unfold quickStep
  rw [if_neg (by simp)]
  split
  · rename_i h
    rw [value_lt, absolute_value] at h
    have h1 := quadratic_size r slope lastSlope lastStep (hf.trans h.le)
    have h2 := sub_size (quadratic r slope lastSlope lastStep) (lr * slope)
    have h3 := mul_size lr slope
    clear h hf
    split
    · generalize |r.mu.value| * |lastStep.value| = A at *
      generalize |lr.value| * |slope.value| = B at *
      norm_num at *
      linarith [abs_nonneg r.mu.value]
    · generalize |r.mu.value| * |lastStep.value| = A at *
      generalize |lr.value| * |slope.value| = B at *
      clear h2 h3
      norm_num at *
      linarith [abs_nonneg r.mu.value]
  · have h := mul_size (-slope) lr
    rw [value_neg, abs_neg, mul_comm |slope.value|] at h
    generalize |r.mu.value| * |lastStep.value| = A at *
    generalize |lr.value| * |slope.value| = B at *
    clear hf
    norm_num at *
    linarith [abs_nonneg r.mu.value]

/-- The division of a step is never one by zero. -/
theorem C108_no_division_by_zero (r : Rule Single) (slope lastSlope lastStep : Single) (h : Parabola r slope lastSlope lastStep) :
    lastSlope - slope ≠ 0 := by
  intro e
  have h1 := h.1
  rw [e, value_lt, absolute_value, absolute_value] at h1
  have h2 := value_mul_pos (a := r.mu) (b := (0 : Single)) (by rw [value_zero, mul_zero])
  have h3 := value_mul_neg (a := r.mu) (b := (0 : Single)) (by rw [value_zero, mul_zero])
  rw [show (r.mu * (0 : Single)).value = 0 by linarith, abs_zero] at h1
  exact absurd h1 (not_lt.2 (abs_nonneg _))

/-- The constants `0.1` and `1e-15` as `float`. -/
def constants (mu : Single) : Rule Single := ⟨⟨13421773 * 2 ^ 122⟩, ⟨9444733 * 2 ^ 76⟩, mu⟩

/-- A slope changes its sign. -/
def overshot : List (Single × Single) := [(1, 1), (1, 1), (1, -((2 : Nat) : Single))]

/-- Not in general: with `mu` one half, the third step leads uphill: the slopes are 1, 1, -2, the last step is negative. -/
theorem C108_uphill : (steps (constants ⟨2 ^ 148⟩) false 0 0 overshot).map Flt.units =
    [0, -2 ^ 149, -2 ^ 148] := by decide +kernel

/-- The usual `mu` of 1.75. -/
example : ∀ p ∈ (steps (constants ⟨7 * 2 ^ 147⟩) true 0 0 overshot).zip overshot, p.1.value * p.2.2.value ≤ 0 := by
  refine (C108_downhill_partial (constants ⟨7 * 2 ^ 147⟩) ?_ ?_ ?_ true overshot ?_ 0 0 (by rw [value_zero, mul_zero])).2
  · rw [units_value]; norm_num [constants]
  · rw [units_value]; norm_num [constants]
  · rw [units_value]; norm_num [constants]
  · intro h hh
    simp only [overshot, List.mem_cons, List.not_mem_nil, or_false] at hh
    rcases hh with rfl | rfl | rfl <;> (rw [StepRounding.value_one']; norm_num)

/-- After an overshoot the parabola is used: its difference of slopes is three. -/
example : Parabola (constants ⟨7 * 2 ^ 147⟩) (-((2 : Nat) : Single)) 1 (-1) ∧ (1 : Single) - -((2 : Nat) : Single) ≠ 0 :=
  ⟨by decide +kernel, C108_no_division_by_zero (constants ⟨7 * 2 ^ 147⟩) _ _ (-1) (by decide +kernel)⟩

/-- The step that the parabola gives. -/
example : (quickStep (constants ⟨7 * 2 ^ 147⟩) 1 false (-1) 1 (-1)).units = 2 ^ 148 := by decide +kernel

example (lr slope lastSlope lastStep : Single) :
    |(quickStep (constants ⟨7 * 2 ^ 147⟩) lr false slope lastSlope lastStep).value| ≤
      (1 + 1 / 2 ^ 21) * (|(constants ⟨7 * 2 ^ 147⟩).mu.value| * |lastStep.value| + |lr.value| * |slope.value|) +
        |(constants ⟨7 * 2 ^ 147⟩).mu.value| / 2 ^ 97 + 1 / 2 ^ 147 :=
  C108_limited _ (by rw [units_value]; norm_num [constants]) lr slope lastSlope lastStep

end CN24.QuickRounding
