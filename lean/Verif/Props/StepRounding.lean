import Verif.Proof.StepRounding

/-
C106: training in single precision follows the update rule.
-/

namespace CN24.StepRounding
open CN24 CN24.Flt CN24.RoundingNet

/-- The settings as exact numbers. -/
def Rule.exact (r : Rule Single) : Rule ℚ :=
  ⟨r.lr.value, r.layerLr.value, r.l1.value, r.l2.value, r.momentum.value, r.lossSampling.value, r.count⟩

/-- The rule of gradient descent with momentum, as the manuals write it: the loss per pixel and the two penalties. -/
def manual (r : Rule ℚ) (g w last : ℚ) : ℚ × ℚ :=
  let gradient := g / r.count * r.lossSampling + r.l2 * w + r.l1 * (if 0 < w then 1 else if w < 0 then -1 else 0)
  let v := r.momentum * last + r.lr * r.layerLr * gradient
  (w - v, v)

/-- The sum of the sizes of the terms of the rule. -/
def magnitude (r : Rule ℚ) (g w last : ℚ) : ℚ :=
  |w| + |r.lr| * (|r.layerLr| * (|g| / r.count * |r.lossSampling| + |r.l2| * |w| + |r.l1|)) + |r.momentum| * |last|

theorem manual_eq (r : Rule ℚ) (g w last : ℚ) : manual r g w last = descend r g (w, last) := by
  unfold manual descend step direction sign
  dsimp only
  ext <;> ring

section
variable {R : Type _} [Field R] [LinearOrder R]

theorem sign_eq (w : R) : (Trainer.sgn w : R) = sign w := by
  unfold Trainer.sgn sign
  by_cases h : 0 < w
  · simp [h, not_lt_of_gt h]
  · by_cases h' : w < 0
    · simp [h, h']
    · simp [h, h']

/-- The trainer updates each weight in this way. -/
theorem C106_rule (cfg : Trainer.Settings R) (lr : R) (localLr : List R) (c : Trainer.Cell) (st st' : Trainer.State R)
    (hm : cfg.method = .gradientDescent) {layerLr w g last : R} (hl : rd localLr c.node = some layerLr)
    (hw : Trainer.at3 st.weights c.node c.param c.elem = some w) (hg : Trainer.at2 st.accumulated c.flat c.elem = some g)
    (hd : Trainer.at2 st.lastDeltas c.flat c.elem = some last) (h : Trainer.updateWeight cfg lr localLr c st = some st') :
    Trainer.at3 st'.weights c.node c.param c.elem = some (descend (Rule.mk lr layerLr cfg.l1Weight cfg.l2Weight cfg.momentum
      cfg.lossSampling (Trainer.u32 (cfg.sampleCount * cfg.sbatchsize))) g (w, last)).1 ∧
    Trainer.at2 st'.lastDeltas c.flat c.elem = some (descend (Rule.mk lr layerLr cfg.l1Weight cfg.l2Weight cfg.momentum
      cfg.lossSampling (Trainer.u32 (cfg.sampleCount * cfg.sbatchsize))) g (w, last)).2 := by
  have hdir : Trainer.direction cfg layerLr g w = direction (Rule.mk lr layerLr cfg.l1Weight cfg.l2Weight cfg.momentum
      cfg.lossSampling (Trainer.u32 (cfg.sampleCount * cfg.sbatchsize))) w g := by
    unfold Trainer.direction direction
    rw [sign_eq]
  unfold Trainer.updateWeight at h
  rw [hl, hw, hg, hd] at h
  simp only [Option.bind_some, hm, hdir] at h
  rw [Option.bind_eq_some_iff] at h
  obtain ⟨ws, h1, h⟩ := h
  rw [Option.map_eq_some_iff] at h
  obtain ⟨ds, h2, rfl⟩ := h
  refine ⟨?_, ?_⟩
  · have := Trainer.at3_set3 h1 c.node c.param c.elem
    simpa [descend, step] using this
  · have := Trainer.at2_set2 h2 c.flat c.elem
    simpa [descend, step] using this
end

theorem value_one' : (1 : Single).value = 1 := by
  show (((2 ^ 149 : Int)) : ℚ) / 2 ^ 149 = 1
  norm_num

theorem value_pos_iff (a : Single) : 0 < a.value ↔ 0 < a := by
  have : (0 : ℚ) < 2 ^ 149 := by positivity
  show 0 < (a.units : ℚ) / 2 ^ 149 ↔ (0 : Int) < a.units
  rw [div_pos_iff_of_pos_right this]
  exact Int.cast_pos

theorem value_neg_iff (a : Single) : a.value < 0 ↔ a < 0 := by
  have : (0 : ℚ) < 2 ^ 149 := by positivity
  show (a.units : ℚ) / 2 ^ 149 < 0 ↔ a.units < (0 : Int)
  rw [div_lt_iff₀ this, zero_mul]
  exact Int.cast_lt_zero

theorem sign_value (w : Single) : (sign w).value = sign w.value := by
  unfold sign
  simp only [value_pos_iff, value_neg_iff]
  split
  · exact value_one'
  · split
    · rw [value_neg, value_one']
    · exact value_zero

theorem sign_le (w : ℚ) : |sign w| ≤ 1 := by
  unfold sign
  split
  · simp
  · split <;> simp

/-- The updated weight and the step that is kept are those of the rule, up to rounding. -/
theorem C106_step_partial (r : Rule Single) (g w last : Single) (hc : 0 < r.count) (hc' : r.count < 2 ^ 24) (K : ℚ) (hK : 1 ≤ K)
    (hL : |r.layerLr.value| ≤ K) (hP : |r.lossSampling.value| ≤ 1) (hlr : |r.lr.value| ≤ 1) :
    |(descend r g (w, last)).1.value - (manual r.exact g.value w.value last.value).1| ≤
        magnitude r.exact g.value w.value last.value / 2 ^ 21 + K / 2 ^ 146 ∧
      |(descend r g (w, last)).2.value - (manual r.exact g.value w.value last.value).2| ≤
        magnitude r.exact g.value w.value last.value / 2 ^ 21 + K / 2 ^ 146 := by
  have hp : 1 ≤ 24 := by norm_num
  have hcu : ((r.count : Single)).units = r.count * 2 ^ 149 := cast_exact hc'
  have hcv : ((r.count : Single)).value = r.count := by
    unfold Flt.value
    rw [hcu]
    push_cast
    exact mul_div_cancel_right₀ _ (by positivity)
  have hcpos : 0 < ((r.count : Single)).units := by
    rw [hcu]
    positivity
  have hu := ulp_pos 24
  have hu' : ulp 24 ≤ 1 / 100 := by unfold ulp; norm_num
  have ht := tiny_pos 149
  have a1 := (Approx.div hp g (r.count : Single) hcpos)
  have a2 := a1.mul_right hp r.lossSampling
  have a3 := a2.mul_left hp r.layerLr
  have b1 := ((Approx.mul hp r.l2 w).add hp (Approx.mul hp r.l1 (sign w))).mul_left hp r.layerLr
  rw [hcv] at a3
  have n1 : (1 + ulp 24) * (|r.layerLr.value| * ((1 + ulp 24) * (|r.lossSampling.value| * tiny 149) + tiny 149)) + tiny 149 ≤ 5 * K * tiny 149 := by
    have e1 : |r.lossSampling.value| * tiny 149 ≤ tiny 149 := by nlinarith
    have e2 : (1 + ulp 24) * (|r.lossSampling.value| * tiny 149) + tiny 149 ≤ 3 * tiny 149 := by nlinarith [abs_nonneg r.lossSampling.value]
    have e3 : |r.layerLr.value| * ((1 + ulp 24) * (|r.lossSampling.value| * tiny 149) + tiny 149) ≤ K * (3 * tiny 149) := by
      have := abs_nonneg r.lossSampling.value
      gcongr
    have e4 : tiny 149 ≤ K * tiny 149 := by nlinarith
    have e5 : 0 ≤ K * (3 * tiny 149) := by positivity
    nlinarith
  have n2 : (1 + ulp 24) * (|r.layerLr.value| * ((1 + ulp 24) * (tiny 149 + tiny 149))) + tiny 149 ≤ 5 * K * tiny 149 := by
    have e2 : (1 + ulp 24) * (tiny 149 + tiny 149) ≤ 3 * tiny 149 := by nlinarith
    have e3 : |r.layerLr.value| * ((1 + ulp 24) * (tiny 149 + tiny 149)) ≤ K * (3 * tiny 149) := by gcongr
    have e4 : tiny 149 ≤ K * tiny 149 := by nlinarith
    have e5 : 0 ≤ K * (3 * tiny 149) := by positivity
    nlinarith
  have hT : 0 < K * tiny 149 := by positivity
  have hT1 : tiny 149 ≤ K * tiny 149 := by nlinarith
  have d1 := (a3.mono le_rfl n1).add hp (b1.mono le_rfl n2)
  have d2 := d1.mul_left hp r.lr
  have n3 : (1 + ulp 24) * (|r.lr.value| * ((1 + ulp 24) * (5 * K * tiny 149 + 5 * K * tiny 149))) + tiny 149 ≤ 13 * K * tiny 149 := by
    have e1 : (1 + ulp 24) * (5 * K * tiny 149 + 5 * K * tiny 149) ≤ 11 * (K * tiny 149) := by nlinarith
    have e2 : |r.lr.value| * ((1 + ulp 24) * (5 * K * tiny 149 + 5 * K * tiny 149)) ≤ 1 * (11 * (K * tiny 149)) := by gcongr
    nlinarith
  have m1 := (Approx.mul hp r.momentum last).mono (c' := 5) (d' := K * tiny 149) (by norm_num) hT1
  have s1 := (d2.mono (c' := 5) (by norm_num) n3).add hp m1
  have n4 : (1 + ulp 24) * (13 * K * tiny 149 + K * tiny 149) ≤ 15 * K * tiny 149 := by nlinarith
  have s2 := s1.mono le_rfl n4
  have w1 := ((Approx.exact w).mono (c' := 6) (d' := 0) (by norm_num) le_rfl).sub hp s2
  have n5 : (1 + ulp 24) * (0 + 15 * K * tiny 149) ≤ 16 * K * tiny 149 := by nlinarith
  have w2 := w1.mono le_rfl n5
  have hA : |r.lr.value| * (|r.layerLr.value| * (|g.value / r.count| * |r.lossSampling.value|) +
      |r.layerLr.value| * (|r.l2.value * w.value| + |r.l1.value * (sign w).value|)) + |r.momentum.value * last.value| ≤
      magnitude r.exact g.value w.value last.value - |w.value| := by
    have hs : |r.l1.value * (sign w).value| ≤ |r.l1.value| := by
      rw [abs_mul, sign_value]
      have := sign_le w.value
      have := abs_nonneg r.l1.value
      nlinarith
    unfold magnitude Rule.exact
    dsimp only
    rw [abs_div, abs_mul, abs_mul r.momentum.value, Nat.abs_cast, ← mul_add]
    have h1 : |g.value| / r.count * |r.lossSampling.value| + (|r.l2.value| * |w.value| + |r.l1.value * (sign w).value|) ≤
        |g.value| / r.count * |r.lossSampling.value| + |r.l2.value| * |w.value| + |r.l1.value| := by linarith
    have h2 := mul_le_mul_of_nonneg_left (mul_le_mul_of_nonneg_left h1 (abs_nonneg r.layerLr.value)) (abs_nonneg r.lr.value)
    linarith
  have hM : 0 ≤ |r.lr.value| * (|r.layerLr.value| * (|g.value / r.count| * |r.lossSampling.value|) +
      |r.layerLr.value| * (|r.l2.value * w.value| + |r.l1.value * (sign w).value|)) + |r.momentum.value * last.value| := by positivity
  have hw0 := abs_nonneg w.value
  have hq7 : (1 + ulp 24) ^ (6 + 1) - 1 ≤ 1 / 2 ^ 21 := by unfold ulp; norm_num
  have hq6 : (1 + ulp 24) ^ (5 + 1) - 1 ≤ 1 / 2 ^ 21 := by unfold ulp; norm_num
  have hq0 : ∀ n, 0 ≤ (1 + ulp 24) ^ n - 1 := fun n => by have := pow_ge 24 n; linarith
  have ht16 : 16 * K * tiny 149 = K / 2 ^ 146 := by
    unfold tiny
    rw [show (149 + 1) = 4 + 146 by norm_num, pow_add]
    field_simp
    norm_num
  rw [manual_eq]
  have hx : step r.exact g.value (w.value, last.value) = r.lr.value * (r.layerLr.value * (g.value / r.count * r.lossSampling.value) +
      r.layerLr.value * (r.l2.value * w.value + r.l1.value * (sign w).value)) + r.momentum.value * last.value := by
    rw [sign_value]; rfl
  refine ⟨?_, ?_⟩
  · show |(w - step r g (w, last)).value - (w.value - step r.exact g.value (w.value, last.value))| ≤ _
    rw [hx]
    refine w2.err.trans ?_
    rw [ht16]
    refine add_le_add ?_ le_rfl
    rw [div_eq_mul_one_div (magnitude _ _ _ _), mul_comm (magnitude _ _ _ _)]
    exact mul_le_mul hq7 (by linarith) (by linarith) (by positivity)
  · show |(step r g (w, last)).value - step r.exact g.value (w.value, last.value)| ≤ _
    rw [hx]
    refine s2.err.trans ?_
    rw [← ht16]
    refine add_le_add ?_ (by nlinarith)
    rw [div_eq_mul_one_div (magnitude _ _ _ _), mul_comm (magnitude _ _ _ _)]
    exact mul_le_mul hq6 (by linarith) hM (by positivity)

/-- A step that is not too small compared with the weight moves it, and to the right side. -/
theorem C106_moves (r : Rule Single) (g w last : Single) (h0 : (descend r g (w, last)).2.value ≠ 0)
    (h : |w.value| ≤ 2 ^ 23 * |(descend r g (w, last)).2.value|) :
    (0 < (descend r g (w, last)).2.value → (descend r g (w, last)).1.value < w.value) ∧
      ((descend r g (w, last)).2.value < 0 → w.value < (descend r g (w, last)).1.value) := by
  have e := Flt.sub_err (p := 24) (by norm_num) w (step r g (w, last))
  change (step r g (w, last)).value ≠ 0 at h0
  change |w.value| ≤ 2 ^ 23 * |(step r g (w, last)).value| at h
  show (0 < (step r g (w, last)).value → (w - step r g (w, last)).value < w.value) ∧
    ((step r g (w, last)).value < 0 → w.value < (w - step r g (w, last)).value)
  generalize step r g (w, last) = s at *
  have hs : 0 < |s.value| := abs_pos.2 h0
  have h1 : |w.value - s.value| ≤ |w.value| + |s.value| := abs_sub _ _
  have h2 : ulp 24 * |w.value - s.value| < |s.value| := by
    have : ulp 24 * |w.value - s.value| ≤ ulp 24 * (2 ^ 23 * |s.value| + |s.value|) := by
      have := ulp_pos 24
      gcongr
      linarith
    refine this.trans_lt ?_
    unfold ulp
    norm_num
    linarith
  have h3 := abs_lt.1 (e.trans_lt h2)
  refine ⟨fun hp => ?_, fun hn => ?_⟩
  · rw [abs_of_pos hp] at h3
    linarith [h3.2]
  · rw [abs_of_neg hn] at h3
    linarith [h3.1]

/-- Steps that are small enough compared with the weight are lost, in every iteration, whatever the learning rates and gradients
are: the weight keeps its value forever. -/
theorem C106_frozen (r : Rule Single) (w last : Single) (hs : List (Single × Single)) (k : Nat) (hw : w.InFormat)
    (hk : 2 ^ k / 2 ^ 149 * 2 ^ 26 ≤ |w.value|) (hlast : |last.value| ≤ 2 ^ k / 2 ^ 149)
    (hg : ∀ h ∈ hs, |(h.1 * direction r w h.2).value| + ((1 + 1 / 2 ^ 24) * (|r.momentum.value| * (2 ^ k / 2 ^ 149)) + 1 / 2 ^ 150) ≤
      2 ^ k / 2 ^ 149) :
    (descendAll r hs (w, last)).1 = w := by
  induction hs generalizing last with
  | nil => rfl
  | cons h hs ih =>
    have hm := mul_err (p := 24) (e := 149) (by norm_num) r.momentum last
    rw [abs_mul] at hm
    have hml : |r.momentum.value| * |last.value| ≤ |r.momentum.value| * (2 ^ k / 2 ^ 149) :=
      mul_le_mul_of_nonneg_left hlast (abs_nonneg _)
    have hmv : |(r.momentum * last).value| ≤ (1 + 1 / 2 ^ 24) * (|r.momentum.value| * (2 ^ k / 2 ^ 149)) + 1 / 2 ^ 150 := by
      have h1 : |(r.momentum * last).value| ≤ |(r.momentum * last).value - r.momentum.value * last.value| +
          |r.momentum.value| * |last.value| := by
        rw [← abs_mul]
        have := abs_add_le ((r.momentum * last).value - r.momentum.value * last.value) (r.momentum.value * last.value)
        rwa [sub_add_cancel] at this
      have hu : ulp 24 = 1 / 2 ^ 24 := rfl
      have ht : tiny 149 = 1 / 2 ^ 150 := rfl
      rw [hu, ht] at hm
      have h2 : (1 + 1 / 2 ^ 24 : ℚ) * (|r.momentum.value| * |last.value|) ≤ (1 + 1 / 2 ^ 24) * (|r.momentum.value| * (2 ^ k / 2 ^ 149)) := by
        gcongr
      linarith
    have hst : |(step { r with lr := h.1 } h.2 (w, last)).value| ≤ 2 ^ k / 2 ^ 149 := by
      refine add_le_pow (by norm_num) ?_
      have := hg h List.mem_cons_self
      change |(h.1 * direction r w h.2).value| + |(r.momentum * last).value| ≤ _
      linarith
    have hstep : descend { r with lr := h.1 } h.2 (w, last) = (w, step { r with lr := h.1 } h.2 (w, last)) := by
      show (w - step { r with lr := h.1 } h.2 (w, last), step { r with lr := h.1 } h.2 (w, last)) = _
      rw [sub_small (by norm_num) hw]
      calc |(step { r with lr := h.1 } h.2 (w, last)).value| * 2 ^ (24 + 2) ≤ 2 ^ k / 2 ^ 149 * 2 ^ (24 + 2) := by gcongr
        _ ≤ _ := hk
    show (descendAll r hs (descend { r with lr := h.1 } h.2 (w, last))).1 = w
    rw [hstep]
    exact ih _ hst fun g' hg' => hg g' (List.mem_cons_of_mem _ hg')

/-- A learning rate of `2^-30`, no penalties, no momentum. -/
def slow : Rule Single := ⟨⟨2 ^ 119⟩, 1, 0, 0, 0, 1, 1⟩

theorem slow_step : slow.lr * direction slow 1 1 = ⟨2 ^ 119⟩ := by decide +kernel

/-- A weight of one with the learning rate `2^-30` and the gradient one: the rule leads it away without bound, in single precision it never moves. -/
theorem C106_lost (n : Nat) :
    (descendAll slow (List.replicate n (slow.lr, 1)) (1, 0)).1 = 1 ∧
      (descendAll slow.exact (List.replicate n (slow.exact.lr, 1)) (1, 0)).1 = 1 - n / 2 ^ 30 := by
  constructor
  · refine C106_frozen slow 1 0 _ 122 ⟨1, 149, by norm_num, by decide +kernel⟩ ?_ ?_ ?_
    · rw [value_one']; norm_num
    · rw [value_zero]; norm_num
    · intro g hg
      rw [List.eq_of_mem_replicate hg, slow_step]
      have : slow.momentum.value = 0 := value_zero
      rw [this]
      unfold Flt.value
      norm_num
  · have hv : slow.lr.value = 1 / 2 ^ 30 := by
      show (((2 ^ 119 : Int)) : ℚ) / 2 ^ 149 = 1 / 2 ^ 30
      norm_num
    have hd : ∀ w : ℚ, ∀ l : ℚ, descend slow.exact 1 (w, l) = (w - 1 / 2 ^ 30, 1 / 2 ^ 30) := by
      intro w l
      rw [← manual_eq]
      unfold manual Rule.exact
      dsimp only
      rw [hv, show slow.layerLr.value = 1 from value_one', show slow.l1.value = 0 from value_zero, show slow.l2.value = 0 from value_zero,
        show slow.momentum.value = 0 from value_zero, show slow.lossSampling.value = 1 from value_one',
        show slow.count = 1 from rfl]
      simp
    have key : ∀ n : Nat, ∀ w l : ℚ, (descendAll slow.exact (List.replicate n (slow.exact.lr, 1)) (w, l)).1 = w - n / 2 ^ 30 := by
      intro n
      induction n with
      | zero => intro w l; simp [descendAll]
      | succ n ih =>
        intro w l
        show (descendAll slow.exact (List.replicate n (slow.exact.lr, 1)) (descend slow.exact 1 (w, l))).1 = _
        rw [hd, ih]
        push_cast
        ring
    exact key n 1 0

/-- The usual settings (include/cn24/net/Trainer.h:34-39, rounded to powers of two): a weight of one and a gradient of one per pixel. -/
def usual : Rule Single := ⟨⟨2 ^ 136⟩, 1, ⟨2 ^ 139⟩, ⟨2 ^ 138⟩, ⟨2 ^ 148⟩, 1, 512⟩

example : |(descend usual (512 : Nat) (1, ⟨2 ^ 130⟩)).1.value -
    (manual usual.exact ((512 : Nat) : Single).value (1 : Single).value (⟨2 ^ 130⟩ : Single).value).1| ≤
      magnitude usual.exact ((512 : Nat) : Single).value (1 : Single).value (⟨2 ^ 130⟩ : Single).value / 2 ^ 21 + 1 / 2 ^ 146 :=
  (C106_step_partial usual ((512 : Nat) : Single) 1 ⟨2 ^ 130⟩ (by decide) (by decide) 1 (le_refl _)
    (by rw [show usual.layerLr.value = 1 from value_one']; simp)
    (by rw [show usual.lossSampling.value = 1 from value_one']; simp)
    (by show |(((2 ^ 136 : Int)) : ℚ) / 2 ^ 149| ≤ 1; rw [abs_of_nonneg (by positivity)]; norm_num)).1

example : (descend usual ((512 : Nat) : Single) (1, 0)).1 < (1 : Single) ∧ (descend usual ((512 : Nat) : Single) (1, 0)).2 ≠ 0 := by
  decide +kernel

/-- The hypotheses of `C106_moves` hold for it. -/
example : (descend usual ((512 : Nat) : Single) (1, 0)).1.value < (1 : Single).value := by
  have hs : (descend usual ((512 : Nat) : Single) (1, 0)).2.value = 87239891819355598570422664980319575212032 / 2 ^ 149 := by
    rw [show (descend usual ((512 : Nat) : Single) (1, 0)).2 = ⟨87239891819355598570422664980319575212032⟩ by decide +kernel]
    simp [Flt.value]
  refine (C106_moves usual ((512 : Nat) : Single) 1 0 (by rw [hs]; norm_num) ?_).1 (by rw [hs]; norm_num)
  rw [hs, show (1 : Single).value = 1 from value_one']
  norm_num [abs_of_pos]

/-- The second weight of a network with two layers of one parameter each, the learning rate of the second layer being three. -/
example : ∃ st', Trainer.updateWeight (R := ℚ) ⟨1 / 2, 0, 1 / 4, 0, .gradientDescent, 2, 8, 1⟩ (1 / 8) [1, 3] ⟨1, 0, 1, 0⟩
      ⟨[[[5]], [[2, 7]]], [[0], [4, 0]], [[0], [0, 0]], [[1], [16, 1]], true⟩ = some st' ∧
    Trainer.at3 st'.weights 1 0 0 = some (descend (⟨1 / 8, 3, 1 / 2, 0, 1 / 4, 1, Trainer.u32 (8 * 2)⟩ : Rule ℚ) 16 (2, 4)).1 :=
  ⟨_, rfl, (C106_rule ⟨1 / 2, 0, 1 / 4, 0, .gradientDescent, 2, 8, 1⟩ (1 / 8) [1, 3] ⟨1, 0, 1, 0⟩
    ⟨[[[5]], [[2, 7]]], [[0], [4, 0]], [[0], [0, 0]], [[1], [16, 1]], true⟩ _ rfl rfl rfl rfl rfl rfl).1⟩

/-- The same with a momentum of one half. -/
def heavy : Rule Single := ⟨⟨2 ^ 119⟩, 1, 0, 0, ⟨2 ^ 148⟩, 1, 1⟩

theorem heavy_step : heavy.lr * direction heavy 1 1 = ⟨2 ^ 119⟩ := by decide +kernel

example : (descendAll heavy (List.replicate 1000 (heavy.lr, 1)) (1, 0)).1 = 1 := by
  refine C106_frozen heavy 1 0 _ 122 ⟨1, 149, by norm_num, by decide +kernel⟩ ?_ ?_ ?_
  · rw [value_one']; norm_num
  · rw [value_zero]; norm_num
  · intro g hg
    rw [List.eq_of_mem_replicate hg, heavy_step, show heavy.momentum = ⟨2 ^ 148⟩ from rfl]
    unfold Flt.value
    norm_num

end CN24.StepRounding
