import Verif.Model.LossLine
import Verif.Proof.StepRounding

/-
C107: the loss per sample printed after tests and epochs is the mean.
-/

namespace CN24.LossLine
open CN24 CN24.Flt CN24.RoundingNet

/-- What should be printed: the mean over all pixels that took part. -/
def mean (pixels : ℚ) (losses : List ℚ) : ℚ := losses.sum / pixels

theorem lossSum_eq (losses : List ℚ) : lossSum losses = losses.sum := by
  have key : ∀ (l : List ℚ) (a : ℚ), l.foldl (fun s l => s + l) a = a + l.sum := by
    intro l
    induction l with
    | nil => intro a; simp
    | cons b l ih => intro a; rw [List.foldl_cons, ih, List.sum_cons, add_assoc]
  unfold lossSum
  rw [key, zero_add]

theorem u32_of_lt {n : Nat} (h : n < 2 ^ 32) : Trainer.u32 n = n := Nat.mod_eq_of_lt h

/-- In exact arithmetic, the line after an epoch shows the mean as long as the number of pixels fits 32 bits. -/
theorem C107_epoch_partial (iterations sampleCount sbatchsize : Nat) (probability : ℚ) (losses : List ℚ) (hb : 0 < sbatchsize)
    (h : iterations * sampleCount * sbatchsize < 2 ^ 32) :
    epochLoss iterations sampleCount sbatchsize probability losses =
      mean (iterations * sbatchsize * sampleCount * probability) losses := by
  have h1 : iterations * sampleCount < 2 ^ 32 := (Nat.le_mul_of_pos_right _ hb).trans_lt h
  unfold epochLoss mean
  rw [u32_of_lt h1, u32_of_lt h, lossSum_eq]
  push_cast
  congr 1
  ring

/-- If it does not fit, the number printed is too large (or infinite), whatever the losses are. -/
theorem C107_too_large (iterations sampleCount : Nat) (losses : List ℚ) (hpos : 0 < losses.sum)
    (h : 2 ^ 32 ≤ iterations * sampleCount) :
    Trainer.u32 (iterations * sampleCount) = 0 ∨ mean (iterations * sampleCount) losses < testLoss iterations sampleCount losses := by
  rcases Nat.eq_zero_or_pos (Trainer.u32 (iterations * sampleCount)) with h0 | h0
  · exact Or.inl h0
  · refine Or.inr ?_
    have hlt : Trainer.u32 (iterations * sampleCount) < iterations * sampleCount :=
      (Nat.mod_lt _ (by norm_num)).trans_le h
    unfold testLoss mean
    rw [lossSum_eq]
    have h1 : (0 : ℚ) < (Trainer.u32 (iterations * sampleCount) : Nat) := by exact_mod_cast h0
    have h2 : ((Trainer.u32 (iterations * sampleCount) : Nat) : ℚ) < iterations * sampleCount := by exact_mod_cast hlt
    exact div_lt_div_of_pos_left hpos h1 h2

/-- 4097 batches of 1024 x 1024 pixels: the loss is overstated 4097 times. -/
theorem C107_overstated (losses : List ℚ) :
    testLoss 4097 (1024 * 1024) losses = 4097 * mean (4097 * (1024 * 1024)) losses := by
  unfold testLoss mean
  rw [show Trainer.u32 (4097 * (1024 * 1024)) = 1024 * 1024 from by decide, lossSum_eq]
  push_cast
  ring

theorem sum_approx (l : List Single) : ∀ (a : Single) (x A : ℚ) (c : Nat), Approx a x A c 0 →
    Approx (l.foldl (fun s b => s + b) a) (x + (l.map Flt.value).sum) (A + (l.map fun b => |b.value|).sum) (c + l.length) 0 := by
  induction l with
  | nil => intro a x A c h; simpa using h
  | cons b l ih =>
    intro a x A c h
    have h1 := h.add (by norm_num) ((Approx.exact b).mono (Nat.zero_le c) le_rfl)
    rw [show (1 + ulp 24) * (0 + 0) = (0 : ℚ) by ring] at h1
    have h2 := ih _ _ _ _ h1
    simp only [List.map_cons, List.sum_cons, List.foldl_cons, List.length_cons]
    rw [← add_assoc x, ← add_assoc A, show c + (l.length + 1) = c + 1 + l.length by omega]
    exact h2

theorem units_nonneg {v : Single} (h : 0 ≤ v.value) : 0 ≤ v.units := by
  by_contra hc
  have h1 : (v.units : ℚ) < 0 := by exact_mod_cast (not_le.1 hc)
  have : v.value < 0 := div_neg_of_neg_of_pos h1 (by positivity)
  linarith

theorem units_pos {v : Single} (h : 0 < v.value) : 0 < v.units := by
  by_contra hc
  have h1 : (v.units : ℚ) ≤ 0 := by exact_mod_cast (not_lt.1 hc)
  have : v.value ≤ 0 := div_nonpos_of_nonpos_of_nonneg h1 (by positivity)
  linarith

/-- The error of a quotient whose parts have relative errors. -/
theorem quotient_bound {v den : Single} {x N n k C : ℚ} (hx : 0 ≤ x) (hN : 0 < N) (hk : 0 ≤ k) (hk' : k ≤ 3)
    (hnu : n * ulp 24 ≤ 1 / 4) (herr : |v.value - x| ≤ 2 * n * ulp 24 * x) (hden : |den.value - N| ≤ k * ulp 24 * N) (hC : 0 ≤ C)
    (hb : 1 + 2 * (n * ulp 24) + 2 * n + k ≤ C * (1 - k * ulp 24)) :
    |(v / den).value - x / N| ≤ C * ulp 24 * (x / N) + 1 / 2 ^ 150 := by
  have hu0 := ulp_pos 24
  have hu1 : ulp 24 ≤ 1 / 100 := by unfold ulp; norm_num
  have hku : k * ulp 24 ≤ 3 / 100 := by nlinarith
  have hv0 : 0 ≤ v.value := by
    have := (abs_le.1 herr).1
    nlinarith
  have hdl : N * (1 - k * ulp 24) ≤ den.value := by linarith [(abs_le.1 hden).1]
  have hdpos : 0 < den.value := lt_of_lt_of_le (mul_pos hN (by linarith)) hdl
  have hq := div_err (p := 24) (e := 149) (by norm_num) v den (units_nonneg hv0) (units_pos hdpos)
  rw [show (1 : ℚ) / 2 ^ 24 = ulp 24 from rfl] at hq
  have hquot : |v.value / den.value - x / N| ≤ (2 * n * ulp 24 * x + k * ulp 24 * x) / den.value := by
    rw [show v.value / den.value - x / N = ((v.value - x) * N + x * (N - den.value)) / N / den.value by field_simp; ring,
      abs_div, abs_of_pos hdpos]
    gcongr
    rw [abs_div, abs_of_pos hN, div_le_iff₀ hN]
    refine (abs_add_le _ _).trans ?_
    rw [abs_mul, abs_mul, abs_of_pos hN, abs_of_nonneg hx, abs_sub_comm N]
    have h1 := mul_le_mul_of_nonneg_right herr hN.le
    have h2 := mul_le_mul_of_nonneg_left hden hx
    linarith
  have hvx : v.value ≤ x + 2 * n * ulp 24 * x := by linarith [(abs_le.1 herr).2]
  have htot : |(v / den).value - x / N| ≤ (ulp 24 * (x + 2 * n * ulp 24 * x) + (2 * n * ulp 24 * x + k * ulp 24 * x)) / den.value + 1 / 2 ^ 150 := by
    have h1 : ulp 24 * (v.value / den.value) ≤ ulp 24 * (x + 2 * n * ulp 24 * x) / den.value := by
      rw [mul_div_assoc]
      gcongr
    have h2 := abs_add_le ((v / den).value - v.value / den.value) (v.value / den.value - x / N)
    rw [sub_add_sub_cancel] at h2
    rw [add_div]
    have h3 : (1 : ℚ) / 2 ^ (149 + 1) = 1 / 2 ^ 150 := rfl
    linarith
  refine htot.trans (add_le_add ?_ le_rfl)
  rw [div_le_iff₀ hdpos]
  have hcoef : (0 : ℚ) ≤ C * ulp 24 * (x / N) := by positivity
  refine le_trans ?_ (mul_le_mul_of_nonneg_left hdl hcoef)
  rw [show C * ulp 24 * (x / N) * (N * (1 - k * ulp 24)) = (ulp 24 * (C * (1 - k * ulp 24))) * x by field_simp,
    show ulp 24 * (x + 2 * n * ulp 24 * x) + (2 * n * ulp 24 * x + k * ulp 24 * x) = (ulp 24 * (1 + 2 * (n * ulp 24) + 2 * n + k)) * x by ring]
  exact mul_le_mul_of_nonneg_right (mul_le_mul_of_nonneg_left hb hu0.le) hx

theorem sum_bound (losses : List Single) (hpos : ∀ l ∈ losses, 0 ≤ l.value) (hn : losses.length ≤ 2 ^ 22) :
    0 ≤ (losses.map Flt.value).sum ∧ (losses.length : ℚ) * ulp 24 ≤ 1 / 4 ∧
      |(lossSum losses).value - (losses.map Flt.value).sum| ≤ 2 * losses.length * ulp 24 * (losses.map Flt.value).sum := by
  have hsum := sum_approx losses 0 0 0 0 ⟨by rw [value_zero]; simp, by simp, le_rfl⟩
  have habs : (losses.map fun b => |b.value|) = losses.map Flt.value :=
    List.map_congr_left fun b hb => abs_of_nonneg (hpos b hb)
  rw [habs, zero_add, Nat.zero_add] at hsum
  change Approx (lossSum losses) _ _ _ _ at hsum
  have hS0 : 0 ≤ (losses.map Flt.value).sum := List.sum_nonneg (by
    intro v hv
    obtain ⟨b, hb, rfl⟩ := List.mem_map.1 hv
    exact hpos b hb)
  have hnq : (losses.length : ℚ) ≤ 2 ^ 22 := by exact_mod_cast hn
  have hu : ulp 24 = 1 / 2 ^ 24 := rfl
  have hnu : (losses.length : ℚ) * ulp 24 ≤ 1 / 4 := by rw [hu]; norm_num; linarith
  have hpow := pow_le_two_mul 24 losses.length (by linarith)
  have herr := hsum.err
  rw [add_zero] at herr
  exact ⟨hS0, hnu, herr.trans (mul_le_mul_of_nonneg_right (by linarith) hS0)⟩

theorem cast_bound (N : Nat) : |((N : Single)).value - N| ≤ ulp 24 * N := by
  have h1 := roundBits_err_rat (p := 24) (by norm_num) (N * 2 ^ 149)
  have hp : (0 : ℚ) < 2 ^ 149 := by positivity
  show |(((roundBits 24 (N * 2 ^ 149) : Nat) : Int) : ℚ) / 2 ^ 149 - N| ≤ _
  generalize roundBits 24 (N * 2 ^ 149) = b at h1 ⊢
  rw [Nat.cast_mul, Nat.cast_pow] at h1
  rw [show ((2 : Nat) : ℚ) ^ 149 = 2 ^ 149 by norm_num] at h1
  generalize (2 : ℚ) ^ 149 = q at h1 hp ⊢
  rw [show (((b : Nat) : Int) : ℚ) / q - N = ((b : ℚ) - N * q) / q by
    rw [Int.cast_natCast]
    field_simp, abs_div, abs_of_pos hp, div_le_iff₀ hp]
  refine h1.trans (le_of_eq ?_)
  ring

/-- In single precision, the line after a test shows the mean up to rounding. -/
theorem C107_test_partial (iterations sampleCount : Nat) (losses : List Single) (hpos : ∀ l ∈ losses, 0 ≤ l.value)
    (hn : losses.length ≤ 2 ^ 22) (h0 : 0 < iterations * sampleCount) (h : iterations * sampleCount < 2 ^ 32) :
    |(testLoss iterations sampleCount losses).value - mean (iterations * sampleCount) (losses.map Flt.value)| ≤
      (losses.length + 2) / 2 ^ 23 * mean (iterations * sampleCount) (losses.map Flt.value) + 1 / 2 ^ 150 := by
  obtain ⟨hS0, hnu, herr⟩ := sum_bound losses hpos hn
  have hden := cast_bound (iterations * sampleCount)
  have hu1 : ulp 24 ≤ 1 / 100 := by unfold ulp; norm_num
  have hN : ((iterations * sampleCount : Nat) : ℚ) = (iterations : ℚ) * sampleCount := by push_cast; ring
  have key := quotient_bound (k := 1) (C := 2 * losses.length + 4) hS0 (by exact_mod_cast h0 : (0 : ℚ) < ((iterations * sampleCount : Nat) : ℚ))
    (by norm_num) (by norm_num) hnu herr (by rw [one_mul]; exact hden) (by positivity) (by linarith)
  unfold testLoss mean
  rw [u32_of_lt h, ← hN]
  refine key.trans (le_of_eq ?_)
  rw [show ulp 24 = 1 / 2 ^ 24 from rfl]
  ring

/-- In single precision, the line after an epoch shows the mean up to rounding. -/
theorem C107_epoch_rounded_partial (iterations sampleCount sbatchsize : Nat) (probability : Single) (losses : List Single)
    (hpos : ∀ l ∈ losses, 0 ≤ l.value) (hn : losses.length ≤ 2 ^ 22) (hp0 : 1 / 2 ^ 100 ≤ probability.value)
    (h0 : 0 < iterations * sampleCount * sbatchsize) (h : iterations * sampleCount * sbatchsize < 2 ^ 32) :
    |(epochLoss iterations sampleCount sbatchsize probability losses).value -
        mean (iterations * sbatchsize * sampleCount * probability.value) (losses.map Flt.value)| ≤
      (losses.length + 4) / 2 ^ 23 * mean (iterations * sbatchsize * sampleCount * probability.value) (losses.map Flt.value) + 1 / 2 ^ 150 := by
  obtain ⟨hS0, hnu, herr⟩ := sum_bound losses hpos hn
  have hb : 0 < sbatchsize := Nat.pos_of_ne_zero fun hc => by subst hc; simp at h0
  have h1 : iterations * sampleCount < 2 ^ 32 := (Nat.le_mul_of_pos_right _ hb).trans_lt h
  have hcast := cast_bound (iterations * sampleCount * sbatchsize)
  have hmul := mul_err (p := 24) (e := 149) (by norm_num) ((iterations * sampleCount * sbatchsize : Nat) : Single) probability
  have hN : (iterations : ℚ) * sbatchsize * sampleCount = ((iterations * sampleCount * sbatchsize : Nat) : ℚ) := by push_cast; ring
  unfold epochLoss mean
  rw [u32_of_lt h1, u32_of_lt h, hN]
  have hNq : (1 : ℚ) ≤ ((iterations * sampleCount * sbatchsize : Nat) : ℚ) := by exact_mod_cast h0
  generalize ((iterations * sampleCount * sbatchsize : Nat) : Single) = c at *
  generalize ((iterations * sampleCount * sbatchsize : Nat) : ℚ) = N at *
  have hpp : 0 < probability.value := lt_of_lt_of_le (by positivity) hp0
  have hu0 := ulp_pos 24
  have hu1 : ulp 24 ≤ 1 / 100 := by unfold ulp; norm_num
  have ht : tiny 149 ≤ ulp 24 / 2 * (N * probability.value) := by
    have e1 : (1 : ℚ) / 2 ^ 100 ≤ N * probability.value := hp0.trans (le_mul_of_one_le_left hpp.le hNq)
    have e2 : tiny 149 ≤ ulp 24 / 2 * (1 / 2 ^ 100) := by
      unfold tiny ulp
      norm_num
    exact e2.trans (mul_le_mul_of_nonneg_left e1 (by positivity))
  have hcN : |c.value| ≤ (1 + ulp 24) * N := by
    have := abs_add_le (c.value - N) N
    rw [sub_add_cancel, abs_of_pos (show 0 < N by linarith)] at this
    linarith
  have hden : |(c * probability).value - N * probability.value| ≤ 3 * ulp 24 * (N * probability.value) := by
    rw [abs_mul, abs_of_pos hpp] at hmul
    have e1 : |c.value * probability.value - N * probability.value| ≤ ulp 24 * N * probability.value := by
      rw [← sub_mul, abs_mul, abs_of_pos hpp]
      exact mul_le_mul_of_nonneg_right hcast hpp.le
    have e2 : ulp 24 * (|c.value| * probability.value) ≤ ulp 24 * ((1 + ulp 24) * N * probability.value) := by gcongr
    have e3 := abs_add_le ((c * probability).value - c.value * probability.value) (c.value * probability.value - N * probability.value)
    rw [sub_add_sub_cancel] at e3
    have e4 : 0 < N * probability.value := mul_pos (by linarith) hpp
    have e5 : ulp 24 * (ulp 24 * (N * probability.value)) ≤ ulp 24 * (1 / 100 * (N * probability.value)) := by gcongr
    have e6 : 0 < ulp 24 * (N * probability.value) := mul_pos hu0 e4
    nlinarith
  have key := quotient_bound (k := 3) (C := 2 * losses.length + 8) hS0 (mul_pos (by linarith) hpp : 0 < N * probability.value)
    (by norm_num) (by norm_num) hnu herr hden (by positivity) (by nlinarith)
  refine key.trans (le_of_eq ?_)
  rw [show ulp 24 = 1 / 2 ^ 24 from rfl]
  ring

/-- Later losses that are small compared with the sum so far are not counted, however many there are. -/
theorem C107_not_counted (first later : List Single) (hf : (lossSum first).InFormat)
    (h : ∀ l ∈ later, |l.value| * 2 ^ 26 ≤ |(lossSum first).value|) : lossSum (first ++ later) = lossSum first := by
  unfold lossSum at *
  rw [List.foldl_append]
  generalize List.foldl (fun s l => s + l) 0 first = s at *
  induction later with
  | nil => rfl
  | cons l later ih =>
    have h1 : s + l = s := by
      have := sub_small (p := 24) (e := 149) (by norm_num) (b := -l) hf (by
        rw [value_neg, abs_neg]
        exact h l List.mem_cons_self)
      rw [sub_eq] at this
      rwa [show -(-l) = l by show (⟨- -_⟩ : Single) = _; simp] at this
    rw [List.foldl_cons, h1]
    exact ih fun l' hl' => h l' (List.mem_cons_of_mem _ hl')

/-- Ten batches of two images with 32 x 32 pixels. -/
example : |(testLoss 10 2048 (List.replicate 10 (1 : Single))).value - mean ((10 : Nat) * (2048 : Nat)) ((List.replicate 10 (1 : Single)).map Flt.value)| ≤
    ((List.replicate 10 (1 : Single)).length + 2) / 2 ^ 23 * mean ((10 : Nat) * (2048 : Nat)) ((List.replicate 10 (1 : Single)).map Flt.value) + 1 / 2 ^ 150 :=
  C107_test_partial 10 2048 _ (by
    intro l hl
    rw [List.eq_of_mem_replicate hl]
    show (0 : ℚ) ≤ ((2 ^ 149 : Int) : ℚ) / 2 ^ 149
    norm_num) (by rw [List.length_replicate]; norm_num) (by norm_num) (by norm_num)

example : epochLoss 3 4 2 (1 / 2) [1, 2, 3, 4, 5, (6 : ℚ)] = 7 / 4 := by
  rw [C107_epoch_partial _ _ _ _ _ (by norm_num) (by norm_num)]
  norm_num [mean]

/-- Half of the pixels are sampled. -/
example : |(epochLoss 10 2048 2 ⟨2 ^ 148⟩ (List.replicate 20 (1 : Single))).value -
      mean ((10 : Nat) * (2 : Nat) * (2048 : Nat) * (⟨2 ^ 148⟩ : Single).value) ((List.replicate 20 (1 : Single)).map Flt.value)| ≤
    ((List.replicate 20 (1 : Single)).length + 4) / 2 ^ 23 *
      mean ((10 : Nat) * (2 : Nat) * (2048 : Nat) * (⟨2 ^ 148⟩ : Single).value) ((List.replicate 20 (1 : Single)).map Flt.value) + 1 / 2 ^ 150 :=
  C107_epoch_rounded_partial 10 2048 2 _ _ (by
    intro l hl
    rw [List.eq_of_mem_replicate hl]
    show (0 : ℚ) ≤ ((2 ^ 149 : Int) : ℚ) / 2 ^ 149
    norm_num) (by rw [List.length_replicate]; norm_num) (by
      show (1 : ℚ) / 2 ^ 100 ≤ ((2 ^ 148 : Int) : ℚ) / 2 ^ 149
      norm_num) (by norm_num) (by norm_num)

example : Trainer.u32 (8192 * (1024 * 1024)) = 0 := by decide

/-- Five thousand iterations over megapixel images. -/
example : mean ((5000 : Nat) * (1024 * 1024 : Nat)) [(3 : ℚ), 4] < testLoss 5000 (1024 * 1024) [(3 : ℚ), 4] :=
  (C107_too_large 5000 (1024 * 1024) [3, 4] (by norm_num) (by norm_num)).resolve_left (by decide)

/-- A batch with the loss 2^26, then a million with the loss one. -/
example : lossSum ([⟨2 ^ 175⟩] ++ List.replicate 1000000 (1 : Single)) = lossSum [⟨2 ^ 175⟩] := by
  have hs : lossSum [(⟨2 ^ 175⟩ : Single)] = ⟨2 ^ 175⟩ := by decide +kernel
  refine C107_not_counted _ _ ⟨1, 175, by norm_num, by rw [hs]; decide +kernel⟩ ?_
  intro l hl
  rw [List.eq_of_mem_replicate hl, hs]
  show |((2 ^ 149 : Int) : ℚ) / 2 ^ 149| * 2 ^ 26 ≤ |((2 ^ 175 : Int) : ℚ) / 2 ^ 149|
  norm_num

end CN24.LossLine
