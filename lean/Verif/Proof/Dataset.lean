import Verif.Model.Dataset
import Verif.Base.Writes
import Verif.Props.Tensor
import Mathlib.Data.Nat.Bitwise

namespace CN24.TensorStreamDataset
open CN24 CN24.Tensor

variable {R : Type _}

/-! ### Announced dimensions -/

theorem bump_eq (k w : Nat) : bump (2 ^ k) w = if w / 2 ^ k % 2 = 1 then w + 2 ^ k else w := by
  unfold bump
  have h : w &&& 2 ^ k ≠ 0 ↔ w / 2 ^ k % 2 = 1 := by
    rw [Nat.and_two_pow, Nat.testBit_eq_decide_div_mod_eq]
    by_cases h : w / 2 ^ k % 2 = 1
    · simp [h]
    · simp [h]
  by_cases hc : w / 2 ^ k % 2 = 1
  · rw [if_pos (h.2 hc), if_pos hc]
  · rw [if_neg (fun e => hc (h.1 e)), if_neg hc]

theorem roundUp_spec (w : Nat) : 64 ∣ roundUp w ∧ w ≤ roundUp w ∧ roundUp w < w + 64 := by
  have h : ∀ k v, bump (2 ^ k) v = if v / 2 ^ k % 2 = 1 then v + 2 ^ k else v := bump_eq
  have h0 := h 0 w
  have h1 := h 1 (bump 1 w)
  have h2 := h 2 (bump 2 (bump 1 w))
  have h3 := h 3 (bump 4 (bump 2 (bump 1 w)))
  have h4 := h 4 (bump 8 (bump 4 (bump 2 (bump 1 w))))
  have h5 := h 5 (bump 16 (bump 8 (bump 4 (bump 2 (bump 1 w)))))
  simp only [Nat.reducePow] at h0 h1 h2 h3 h4 h5
  unfold roundUp
  generalize bump 32 (bump 16 (bump 8 (bump 4 (bump 2 (bump 1 w))))) = w6 at *
  generalize bump 16 (bump 8 (bump 4 (bump 2 (bump 1 w)))) = w5 at *
  generalize bump 8 (bump 4 (bump 2 (bump 1 w))) = w4 at *
  generalize bump 4 (bump 2 (bump 1 w)) = w3 at *
  generalize bump 2 (bump 1 w) = w2 at *
  generalize bump 1 w = w1 at *
  have e1 : w1 % 2 = 0 ∧ w ≤ w1 ∧ w1 < w + 2 := by split at h0 <;> omega
  have e2 : w2 % 4 = 0 ∧ w ≤ w2 ∧ w2 < w + 4 := by split at h1 <;> omega
  have e3 : w3 % 8 = 0 ∧ w ≤ w3 ∧ w3 < w + 8 := by split at h2 <;> omega
  have e4 : w4 % 16 = 0 ∧ w ≤ w4 ∧ w4 < w + 16 := by split at h3 <;> omega
  have e5 : w5 % 32 = 0 ∧ w ≤ w5 ∧ w5 < w + 32 := by split at h4 <;> omega
  have e6 : w6 % 64 = 0 ∧ w ≤ w6 ∧ w6 < w + 64 := by split at h5 <;> omega
  omega

theorem maxOver_spec (a b : Nat) (v : Nat → Nat) (start : Nat) :
    start ≤ maxOver a b v start ∧ (∀ i, a ≤ i → i < b → v i ≤ maxOver a b v start) := by
  unfold maxOver
  have key : ∀ n, start ≤ (List.range n).foldl
        (fun m i => if v (a + i) > m then v (a + i) else m) start ∧
      ∀ i, i < n → v (a + i) ≤ (List.range n).foldl
        (fun m i => if v (a + i) > m then v (a + i) else m) start := by
    intro n
    induction n with
    | zero => simp
    | succ n ih =>
      rw [List.range_succ, List.foldl_append]
      obtain ⟨i1, i2⟩ := ih
      simp only [List.foldl_cons, List.foldl_nil]
      constructor
      · split <;> omega
      · intro i hi
        rcases Nat.lt_or_ge i n with h | h
        · have := i2 i h
          split <;> omega
        · obtain rfl : i = n := by omega
          split <;> omega
  refine ⟨(key _).1, ?_⟩
  intro i h1 h2
  have := (key (b - a)).2 (i - a) (by omega)
  rwa [show a + (i - a) = i by omega] at this

theorem construct_done {training testing : List (Tensor R)} {classes names colors : Nat}
    {cw : List R} {ds : Dataset R}
    (h : construct training testing classes names colors cw = .done ds) :
    training.length % 2 = 0 ∧ testing.length % 2 = 0 ∧ ds.training = training ∧
    ds.testing = testing ∧ ds.classWeights = cw ∧
    64 ∣ ds.maxWidth ∧ 64 ∣ ds.maxHeight ∧
    (∀ i t, training[2 * i]? = some t → t.width ≤ ds.maxWidth ∧ t.height ≤ ds.maxHeight) ∧
    (∀ i t, training.length / 2 ≤ i → testing[2 * i]? = some t →
      t.width ≤ ds.maxWidth ∧ t.height ≤ ds.maxHeight) ∧
    ds.inputMaps = streamMaps (if training.length > 0 then training else testing) 0 ∧
    ds.labelMaps = streamMaps (if training.length > 0 then training else testing) 1 := by
  unfold construct at h
  split at h
  · cases h
  split at h
  · cases h
  split at h
  · cases h
  rename_i h1 h2 h3
  obtain rfl := Outcome.done.inj h
  refine ⟨by omega, by omega, rfl, rfl, rfl, (roundUp_spec _).1, (roundUp_spec _).1, ?_, ?_, rfl,
    rfl⟩
  · intro i t hi
    have hlt : 2 * i < training.length := (List.getElem?_eq_some_iff.1 hi).1
    have hw : streamWidth training (2 * i) = t.width := by simp [streamWidth, hi]
    have hh : streamHeight training (2 * i) = t.height := by simp [streamHeight, hi]
    constructor
    · refine Nat.le_trans ?_ (roundUp_spec _).2.1
      refine Nat.le_trans ?_ (maxOver_spec _ _ _ _).1
      rw [← hw]
      exact (maxOver_spec 0 (training.length / 2) (fun t => streamWidth training (2 * t)) 0).2 i
        (by omega) (by omega)
    · refine Nat.le_trans ?_ (roundUp_spec _).2.1
      refine Nat.le_trans ?_ (maxOver_spec _ _ _ _).1
      rw [← hh]
      exact (maxOver_spec 0 (training.length / 2) (fun t => streamHeight training (2 * t)) 0).2 i
        (by omega) (by omega)
  · intro i t hge hi
    have hlt : 2 * i < testing.length := (List.getElem?_eq_some_iff.1 hi).1
    have hw : streamWidth testing (2 * i) = t.width := by simp [streamWidth, hi]
    have hh : streamHeight testing (2 * i) = t.height := by simp [streamHeight, hi]
    constructor
    · refine Nat.le_trans ?_ (roundUp_spec _).2.1
      rw [← hw]
      exact (maxOver_spec (training.length / 2) ((testing.length + training.length) / 2)
        (fun t => streamWidth testing (2 * t)) _).2 i (by omega) (by omega)
    · refine Nat.le_trans ?_ (roundUp_spec _).2.1
      rw [← hh]
      exact (maxOver_spec (training.length / 2) ((testing.length + training.length) / 2)
        (fun t => streamHeight testing (2 * t)) _).2 i (by omega) (by omega)

/-! ### Samples -/

section
variable [Field R] [LinearOrder R]

/-- Two writes to the helper tensor at one pixel. -/
theorem upd_pair {t : Tensor R} (hw : t.WF) (hm : 2 ≤ t.maps) {x y sample : Nat} (hx : x < t.width)
    (hy : y < t.height) (hs : sample < t.samples) (a b : R) :
    ∃ u, ((t.put x y 0 sample a).bind fun t => t.put x y 1 sample b) = some u ∧
      Upd t u (fun x' y' m' s' => if x' = x ∧ y' = y ∧ s' = sample then
        (if m' = 0 then some a else if m' = 1 then some b else none) else none) := by
  obtain ⟨u, h1, h2⟩ := upd_bind (upd_put hw (x := x) (y := y) (m := 0) (s := sample)
    ⟨hx, hy, by omega, hs⟩ a) (f := fun t => t.put x y 1 sample b) (fun u hu hwu => upd_put hwu
      (x := x) (y := y) (m := 1) (s := sample)
      (hu.inRange.2 ⟨hx, hy, by omega, hs⟩) b)
  refine ⟨u, h1, h2.congr ?_⟩
  intro x' y' m' s' _
  by_cases e : x' = x ∧ y' = y ∧ s' = sample
  · obtain ⟨rfl, rfl, rfl⟩ := e
    by_cases h0 : m' = 0
    · subst h0; simp
    · by_cases h1 : m' = 1
      · subst h1; simp
      · simp [h0, h1]
  · rw [if_neg e, if_neg (by tauto), if_neg (by tauto)]; rfl

theorem writeHelper_spec {dw dh w h sample : Nat} {t : Tensor R} (hw : t.WF) (hm : t.maps = 2)
    (hs : sample < t.samples) (h1 : dw ≤ w) (h2 : dh ≤ h) (h3 : w = t.width) (h4 : h = t.height) :
    ∃ u, writeHelper dw dh w h sample t = some u ∧
      Upd t u (fun x y m s => if s = sample then some (if x < dw ∧ y < dh then
        (if m = 0 then (x : R) / ((dw : R) - 1) else (y : R) / ((dh : R) - 1)) else 0) else none) := by
  unfold writeHelper
  have hv : ∀ (P : Prop) [Decidable P] (m : Nat) (a b v : R), m < 2 →
      ((if P then (if m = 0 then some a else if m = 1 then some b else none) else none) = some v ↔
        P ∧ v = if m = 0 then a else b) := by
    intro P _ m a b v hm
    by_cases hP : P
    · rcases (show m = 0 ∨ m = 1 by omega) with h | h <;> simp [hP, h, eq_comm]
    · simp [hP]
  obtain ⟨u, e1, e2⟩ := upd_bind
    (G := fun x y m s => if dh ≤ y ∧ s = sample then some (0 : R) else none)
    (f := forRange dh h (fun y =>
      forLoop w (fun x helper =>
        (helper.put x y 0 sample 0).bind fun helper => helper.put x y 1 sample 0)))
    (upd_loop (n := dh) hw
    (f := fun y helper =>
    (forLoop dw (fun x helper =>
      (helper.put x y 0 sample ((x : R) / ((dw : R) - 1))).bind fun helper =>
        helper.put x y 1 sample ((y : R) / ((dh : R) - 1))) helper).bind
    (forRange dw w (fun x helper =>
      (helper.put x y 0 sample 0).bind fun helper => helper.put x y 1 sample 0)))
    (fun y0 x y m s => if y = y0 ∧ s = sample then
      (if x < dw then some (if m = 0 then (x : R) / ((dw : R) - 1) else (y : R) / ((dh : R) - 1))
        else some 0) else none)
    (fun x y m s => if y < dh ∧ s = sample then
      (if x < dw then some (if m = 0 then (x : R) / ((dw : R) - 1) else (y : R) / ((dh : R) - 1))
        else some 0) else none) (by
    intro y0 u hy0 hsu hwu
    obtain ⟨v, f1, f2⟩ := upd_bind
      (G := fun x y m s => if dw ≤ x ∧ y = y0 ∧ s = sample then some (0 : R) else none)
      (f := forRange dw w (fun x helper =>
      (helper.put x y0 0 sample 0).bind fun helper => helper.put x y0 1 sample 0))
      (upd_loop (n := dw) hwu (f := fun x helper =>
      (helper.put x y0 0 sample ((x : R) / ((dw : R) - 1))).bind fun helper =>
        helper.put x y0 1 sample ((y0 : R) / ((dh : R) - 1)))
        (fun x0 x y m s => if x = x0 ∧ y = y0 ∧ s = sample then
          (if m = 0 then some ((x0 : R) / ((dw : R) - 1)) else
            if m = 1 then some ((y0 : R) / ((dh : R) - 1)) else none) else none)
        (fun x y m s => if x < dw ∧ y = y0 ∧ s = sample then
          some (if m = 0 then (x : R) / ((dw : R) - 1) else (y : R) / ((dh : R) - 1)) else none)
        (by
          intro x0 u' hx0 hsu' hwu'
          have hsh := hsu.trans hsu'
          obtain ⟨k1, k2, k3, k4⟩ := hsh
          exact upd_pair hwu' (by omega) (by omega) (by omega) (by omega) _ _)
        (by
          rintro x0 x y m s v hx0 ⟨_, _, k3, _⟩ e
          have hm2 : m < 2 := by have := hsu.2.2.2; omega
          rw [hv _ _ _ _ _ hm2] at e
          obtain ⟨⟨rfl, rfl, rfl⟩, rfl⟩ := e
          simp [hx0])
        (by
          rintro x y m s v ⟨_, _, k3, _⟩ e
          have hm2 : m < 2 := by have := hsu.2.2.2; omega
          split at e
          · rename_i hc
            obtain ⟨c1, rfl, rfl⟩ := hc
            refine ⟨x, c1, ?_⟩
            rw [hv _ _ _ _ _ hm2]
            exact ⟨⟨rfl, rfl, rfl⟩, (Option.some.inj e).symm⟩
          · cases e))
      (by
        intro u2 hsu2 hwu2
        refine upd_range hwu2 (fun x0 x y m s => if x = x0 ∧ y = y0 ∧ s = sample then
          (if m = 0 then some (0 : R) else if m = 1 then some 0 else none) else none) _ ?_ ?_ ?_
        · intro x0 u' hx0 hx0' hsu' hwu'
          obtain ⟨k1, k2, k3, k4⟩ := (hsu.trans hsu2).trans hsu'
          exact upd_pair hwu' (by omega) (by omega) (by omega) (by omega) _ _
        · rintro x0 x y m s v hx0 hx0' ⟨_, _, k3, _⟩ e
          have hm2 : m < 2 := by have := (hsu.trans hsu2).2.2.2; omega
          rw [hv _ _ _ _ _ hm2] at e
          obtain ⟨⟨rfl, rfl, rfl⟩, rfl⟩ := e
          simp [hx0]
        · rintro x y m s v ⟨k0, _, k3, _⟩ e
          have hm2 : m < 2 := by have := (hsu.trans hsu2).2.2.2; omega
          split at e
          · rename_i hc
            obtain ⟨c1, rfl, rfl⟩ := hc
            refine ⟨x, c1, by have := (hsu.trans hsu2).2.1; omega, ?_⟩
            rw [hv _ _ _ _ _ hm2]
            refine ⟨⟨rfl, rfl, rfl⟩, ?_⟩
            rw [← Option.some.inj e]; simp
          · cases e)
    refine ⟨v, f1, f2.congr ?_⟩
    intro x y m s hin
    by_cases hc : y = y0 ∧ s = sample
    · obtain ⟨rfl, rfl⟩ := hc
      by_cases hx : x < dw
      · simp [hx, Nat.not_le.2 hx]
      · simp [hx, Nat.not_lt.1 hx]
    · rw [if_neg hc, if_neg (by tauto), if_neg (by tauto)]; rfl)
    (by
      intro y0 x y m s v hy0 hin e
      split at e
      · rename_i hc
        obtain ⟨rfl, rfl⟩ := hc
        simpa [hy0] using e
      · cases e)
    (by
      intro x y m s v hin e
      split at e
      · rename_i hc
        obtain ⟨c1, rfl⟩ := hc
        exact ⟨y, c1, by simpa using e⟩
      · cases e))
    (by
      intro u hsu hwu
      refine upd_range hwu (fun y0 x y m s => if y = y0 ∧ s = sample then some 0 else none) _ ?_ ?_ ?_
      · intro y0 u' hy0 hy0' hsu' hwu'
        refine upd_loop hwu' (fun x0 x y m s => if x = x0 ∧ y = y0 ∧ s = sample then
          (if m = 0 then some (0 : R) else if m = 1 then some 0 else none) else none) _ ?_ ?_ ?_
        · intro x0 u2 hx0 hsu2 hwu2
          obtain ⟨k1, k2, k3, k4⟩ := (hsu.trans hsu').trans hsu2
          exact upd_pair hwu2 (by omega) (by omega) (by omega) (by omega) _ _
        · rintro x0 x y m s v hx0 ⟨_, _, k3, _⟩ e
          have hm2 : m < 2 := by have := (hsu.trans hsu').2.2.2; omega
          rw [hv _ _ _ _ _ hm2] at e
          obtain ⟨⟨rfl, rfl, rfl⟩, rfl⟩ := e
          simp
        · rintro x y m s v ⟨k0, _, k3, _⟩ e
          have hm2 : m < 2 := by have := (hsu.trans hsu').2.2.2; omega
          split at e
          · rename_i hc
            obtain ⟨rfl, rfl⟩ := hc
            refine ⟨x, by have := (hsu.trans hsu').2.1; omega, ?_⟩
            rw [hv _ _ _ _ _ hm2]
            refine ⟨⟨rfl, rfl, rfl⟩, ?_⟩
            rw [← Option.some.inj e]; simp
          · cases e
      · intro y0 x y m s v hy0 hy0' hin e
        split at e
        · rename_i hc
          obtain ⟨rfl, rfl⟩ := hc
          simpa [hy0] using e
        · cases e
      · rintro x y m s v ⟨_, k2, _, _⟩ e
        split at e
        · rename_i hc
          obtain ⟨c1, rfl⟩ := hc
          exact ⟨y, c1, by have := hsu.2.2.1; omega, by simpa using e⟩
        · cases e)
  refine ⟨u, e1, e2.congr ?_⟩
  rintro x y m s ⟨i1, i2, i3, i4⟩
  by_cases hss : s = sample
  · subst hss
    by_cases hy : y < dh
    · by_cases hx : x < dw <;> simp [hx, hy, Nat.not_le.2 hy]
    · simp [hy, Nat.not_lt.1 hy]
  · simp [hss]

theorem writeWeights_spec {lowest : R} {ef : Nat → Nat → Nat → Nat → R} {cw : List R}
    {label weight : Tensor R} {dw dh sample : Nat} (hw : weight.WF) (hs : sample < weight.samples)
    (hm : 0 < weight.maps) (h1 : dw ≤ weight.width) (h2 : dh ≤ weight.height)
    (c : Nat → Nat → Nat) (v : Nat → Nat → R)
    (hc : ∀ x y, x < dw → y < dh → label.pixelMaximum lowest x y sample = some (c x y) ∧
      cw[c x y]? = some (v x y)) :
    ∃ u, writeWeights lowest ef cw label dw dh sample weight = some u ∧
      Upd weight u (fun x y m s => if s = sample then some (if x < dw ∧ y < dh ∧ m = 0 then
        ef x y dw dh * v x y else 0) else none) := by
  unfold writeWeights
  obtain ⟨u, e1, e2⟩ := upd_bind (upd_clear_sample hw (0 : R) hs)
    (f := forLoop dh (fun y =>
    forLoop dw (fun x weight =>
      (label.pixelMaximum lowest x y sample).bind fun cls =>
      (rd cw cls).bind fun classWeight =>
      weight.put x y 0 sample (ef x y dw dh * classWeight))))
    (G := fun x y m s => if x < dw ∧ y < dh ∧ m = 0 ∧ s = sample then some (ef x y dw dh * v x y)
      else none) (by
    intro u hsu hwu
    refine upd_loop hwu (fun y0 x y m s => if x < dw ∧ y = y0 ∧ m = 0 ∧ s = sample then
      some (ef x y dw dh * v x y) else none) _ ?_ ?_ ?_
    · intro y0 u2 hy0 hsu2 hwu2
      refine upd_loop hwu2 (fun x0 x y m s => if x = x0 ∧ y = y0 ∧ m = 0 ∧ s = sample then
        some (ef x0 y0 dw dh * v x0 y0) else none) _ ?_ ?_ ?_
      · intro x0 u3 hx0 hsu3 hwu3
        obtain ⟨k1, k2, k3, k4⟩ := (hsu.trans hsu2).trans hsu3
        obtain ⟨p1, p2⟩ := hc x0 y0 hx0 hy0
        simp only [p1, rd, p2, Option.bind_some]
        exact upd_put hwu3 ⟨by omega, by omega, by omega, by omega⟩ _
      · intro x0 x y m s w hx0 _ e
        split at e
        · rename_i hh
          obtain ⟨rfl, rfl, rfl, rfl⟩ := hh
          simpa [hx0] using e
        · cases e
      · intro x y m s w _ e
        split at e
        · rename_i hh
          obtain ⟨q, rfl, rfl, rfl⟩ := hh
          exact ⟨x, q, by simpa using e⟩
        · cases e
    · intro y0 x y m s w hy0 _ e
      split at e
      · rename_i hh
        obtain ⟨q, rfl, rfl, rfl⟩ := hh
        simpa [hy0, q] using e
      · cases e
    · intro x y m s w _ e
      split at e
      · rename_i hh
        obtain ⟨q, q', rfl, rfl⟩ := hh
        exact ⟨y, q', by simpa [q] using e⟩
      · cases e)
  refine ⟨u, e1, e2.congr ?_⟩
  intro x y m s _
  by_cases hss : s = sample
  · by_cases hx : x < dw ∧ y < dh ∧ m = 0
    · simp [hss, hx]
    · rw [if_neg (by tauto), if_pos hss, if_neg hx]
      simp [hss]
  · simp [hss]

end
end CN24.TensorStreamDataset
