import Verif.Model.Classify
import Verif.Base.Writes
import Verif.Base.Nest
import Verif.Base.Kernel

/- Padding, coordinates and cropping. -/

namespace CN24.Classify
open CN24 CN24.Image CN24.Tensor

theorem pad_spec (n : Nat) : pad n % 8 = 0 ∧ n ≤ pad n ∧ pad n < n + 8 := by
  unfold pad
  dsimp only
  split <;> split <;> split <;> omega

theorem pad_eq {n m : Nat} (h0 : m % 8 = 0) (h1 : n ≤ m) (h2 : m < n + 8) : pad n = m := by
  have := pad_spec n
  omega

theorem blank_spec {α : Type _} [Zero α] {w h m : Nat} (hw : 0 < w) (hh : 0 < h) (hm : 0 < m) :
    (blank w h m : Tensor α) = ⟨1, w, h, m, List.replicate (m * w * h) 0⟩ := by
  unfold blank
  rw [if_neg]
  exact Nat.mul_ne_zero (Nat.mul_ne_zero (by omega) (by omega)) (by omega)

theorem replicate_wf {α : Type _} {w h m : Nat} (v : α) : (⟨1, w, h, m, List.replicate (m * w * h) v⟩ : Tensor α).WF := by
  unfold WF Tensor.elements
  simp

theorem replicate_get {α : Type _} {w h m : Nat} (v : α) {x y c : Nat}
    (hin : (⟨1, w, h, m, List.replicate (m * w * h) v⟩ : Tensor α).InRange x y c 0) :
    (⟨1, w, h, m, List.replicate (m * w * h) v⟩ : Tensor α).get x y c 0 = some v := by
  have h1 := offset_lt _ hin
  unfold Tensor.get rd
  rw [List.getElem?_replicate, if_pos]
  unfold Tensor.elements at h1
  simpa using h1

variable {H : Type _} [Zero H]

theorem forRange_zero {σ : Type _} (n : Nat) (f : Nat → σ → Option σ) : forRange 0 n f = forLoop n f := by
  funext s
  unfold forRange
  simp

omit [Zero H] in
/-- Two writes at one pixel. -/
theorem put2_spec {t : Tensor H} (hw : t.WF) (hm : 2 ≤ t.maps) {x y sample : Nat} (hx : x < t.width)
    (hy : y < t.height) (hs : sample < t.samples) (a b : H) :
    ∃ u, ((t.put x y 0 sample a).bind fun t => t.put x y 1 sample b) = some u ∧
      Upd t u (fun x' y' m' s' => if x' = x ∧ y' = y ∧ s' = sample then
        (if m' = 0 then some a else if m' = 1 then some b else none) else none) := by
  obtain ⟨u, h1, h2⟩ := upd_bind (upd_put hw (x := x) (y := y) (m := 0) (s := sample)
    ⟨hx, hy, by omega, hs⟩ a) (f := fun t => t.put x y 1 sample b) (fun u hu hwu => upd_put hwu
      (x := x) (y := y) (m := 1) (s := sample)
      (hu.inRange.2 ⟨hx, hy, by omega, hs⟩) b)
  refine ⟨u, h1, h2.congr ?_⟩
  intro x' y' m' s' _
  by_cases e : x' = x ∧ y' = y ∧ s' = sample
  · obtain ⟨rfl, rfl, rfl⟩ := e
    by_cases h0 : m' = 0
    · subst h0; simp
    · by_cases h1 : m' = 1
      · subst h1; simp
      · simp [h0, h1]
  · rw [if_neg e, if_neg (by tauto), if_neg (by tauto)]; rfl

omit [Zero H] in
/-- Assignments along a row. -/
theorem row_spec {t : Tensor H} (hw : t.WF) (hm : t.maps = 2) (hs : t.samples = 1) {y : Nat} (hy : y < t.height)
    (lo hi : Nat) (hhi : hi ≤ t.width) (a b : Nat → H) :
    ∃ u, forRange lo hi (fun x => put2 x y (a x) (b x)) t = some u ∧
      Upd t u (fun x' y' m s => if lo ≤ x' ∧ x' < hi ∧ y' = y then some (if m = 0 then a x' else b x') else none) := by
  refine upd_range hw (fun x x' y' m s => if x' = x ∧ y' = y ∧ s = 0 then
      (if m = 0 then some (a x) else if m = 1 then some (b x) else none) else none) _ ?_ ?_ ?_
  · intro x u h1 h2 hu hwu
    obtain ⟨k1, k2, k3, k4⟩ := hu
    exact put2_spec hwu (by omega) (by omega) (by omega) (by omega) (a x) (b x)
  · intro i x y' m s v h1 h2 hin h
    obtain ⟨-, -, h5, h6⟩ := hin
    split at h
    · rename_i hc
      obtain ⟨rfl, rfl, rfl⟩ := hc
      rw [if_pos ⟨h1, h2, rfl⟩]
      rcases (show m = 0 ∨ m = 1 by omega) with rfl | rfl
      · simpa using h
      · simpa using h
    · cases h
  · intro x y' m s v hin h
    obtain ⟨-, -, h5, h6⟩ := hin
    split at h
    · rename_i hc
      obtain ⟨h1, h2, rfl⟩ := hc
      refine ⟨x, h1, h2, ?_⟩
      rw [if_pos ⟨rfl, rfl, by omega⟩]
      rcases (show m = 0 ∨ m = 1 by omega) with rfl | rfl
      · simpa using h
      · simpa using h
    · cases h

/-- The coordinates, when no row of padding is longer than the tensor is wide. -/
theorem coordinates_spec (rel : Nat → Nat → H) {ow oh w h : Nat} {t : Tensor H} (hw : t.WF) (hm : t.maps = 2)
    (hs : t.samples = 1) (h1 : t.width = w) (h2 : t.height = h) (how : ow ≤ w) (hoh : oh ≤ h) (hgood : oh = h ∨ h ≤ w) :
    ∃ u, coordinates rel ow oh w h t = some u ∧ Upd t u (fun x y m _ =>
      if y < oh then some (if x < ow then (if m = 0 then rel x ow else rel y oh) else 0)
      else if x < h then some 0 else none) := by
  unfold coordinates
  have first : ∃ u, forLoop oh (fun y helper =>
      (forLoop ow (fun x => put2 x y (rel x ow) (rel y oh)) helper).bind
      (forRange ow w fun x => put2 x y 0 0)) t = some u ∧ Upd t u (fun x y m _ =>
        if y < oh then some (if x < ow then (if m = 0 then rel x ow else rel y oh) else 0) else none) := by
    refine upd_loop hw (fun y0 x y m _ => if y = y0 then
      some (if x < ow then (if m = 0 then rel x ow else rel y oh) else 0) else none) _ ?_ ?_ ?_
    · intro y0 u hy0 hu hwu
      obtain ⟨k1, k2, k3, k4⟩ := hu
      rw [← forRange_zero]
      obtain ⟨v, e1, e2⟩ := upd_bind (row_spec hwu (by omega) (by omega) (y := y0) (by omega) 0 ow (by omega)
        (fun x => rel x ow) (fun _ => rel y0 oh)) (f := forRange ow w fun x => put2 x y0 0 0) (by
          intro v hv hwv
          obtain ⟨q1, q2, q3, q4⟩ := hv
          exact row_spec hwv (by omega) (by omega) (by omega) ow w (by omega) (fun _ => 0) (fun _ => 0))
      refine ⟨v, e1, e2.congr ?_⟩
      intro x y m s hin
      have hx : x < w := by have := hin.1; omega
      by_cases hy : y = y0
      · subst hy
        by_cases hxo : x < ow
        · rw [if_neg (by omega), if_pos ⟨Nat.zero_le _, hxo, rfl⟩, if_pos rfl, if_pos hxo]
          rfl
        · rw [if_pos ⟨by omega, hx, rfl⟩, if_pos rfl, if_neg hxo]
          simp
      · rw [if_neg (by tauto), if_neg (by tauto), if_neg hy]
        rfl
    · intro i x y m s v hi _ hv
      split at hv
      · rename_i e; subst e; rw [if_pos hi]; exact hv
      · cases hv
    · intro x y m s v _ hv
      split at hv
      · rename_i e; exact ⟨y, e, by rw [if_pos rfl]; exact hv⟩
      · cases hv
  obtain ⟨u, e1, e2⟩ := upd_bind first (f := forRange oh h fun y => forLoop h fun x => put2 x y 0 0)
    (G := fun x y _ _ => if oh ≤ y ∧ x < h then some 0 else none) (by
    intro u hu hwu
    obtain ⟨k1, k2, k3, k4⟩ := hu
    refine upd_range hwu (fun y0 x y _ _ => if y = y0 ∧ x < h then some 0 else none) _ ?_ ?_ ?_
    · intro y0 v hy0 hy1 hv hwv
      obtain ⟨q1, q2, q3, q4⟩ := hv
      rw [← forRange_zero]
      obtain ⟨r, f1, f2⟩ := row_spec hwv (by omega) (by omega) (y := y0) (by omega) 0 h (by omega)
        (fun _ => (0 : H)) (fun _ => 0)
      refine ⟨r, f1, f2.congr ?_⟩
      intro x y m s hin
      by_cases hc : y = y0 ∧ x < h
      · rw [if_pos ⟨Nat.zero_le _, hc.2, hc.1⟩, if_pos hc]; simp
      · rw [if_neg (by tauto), if_neg hc]
    · intro i x y m s v h3 h4 _ hv
      split at hv
      · rename_i e; rw [if_pos ⟨by omega, e.2⟩]; exact hv
      · cases hv
    · intro x y m s v hin hv
      split at hv
      · rename_i e; exact ⟨y, e.1, by have := hin.2.1; omega, by rw [if_pos ⟨rfl, e.2⟩]; exact hv⟩
      · cases hv)
  refine ⟨u, e1, e2.congr ?_⟩
  intro x y m s hin
  by_cases hy : y < oh
  · rw [if_neg (by omega), if_pos hy, if_pos hy]
    rfl
  · by_cases hx : x < h
    · rw [if_pos ⟨by omega, hx⟩, if_neg hy, if_neg hy, if_pos hx]; rfl
    · rw [if_neg (by tauto), if_neg hy, if_neg hy, if_neg hx]; rfl

/-- A loop with an iteration that is undefined. -/
theorem forLoop_undefined {σ : Type _} {n : Nat} {f : Nat → σ → Option σ} {s : σ} (Good : σ → Prop) (h0 : Good s)
    (hp : ∀ i s s', Good s → f i s = some s' → Good s') {i : Nat} (hi : i < n) (hf : ∀ s, Good s → f i s = none) :
    forLoop n f s = none := by
  cases h : forLoop n f s with
  | none => rfl
  | some t =>
    have := forLoop_inv_of_eq (fun k s => Good s ∧ k ≤ i) h ⟨h0, Nat.zero_le _⟩ (by
      intro j s s' hj hg e
      refine ⟨hp j s s' hg.1 e, ?_⟩
      rcases Nat.lt_or_ge j i with hlt | hge
      · omega
      · obtain rfl : j = i := by omega
        rw [hf s hg.1] at e; cases e)
    omega

theorem forLoop_good {σ : Type _} {n : Nat} {f : Nat → σ → Option σ} {s t : σ} (Good : σ → Prop) (h0 : Good s)
    (hp : ∀ i s s', Good s → f i s = some s' → Good s') (h : forLoop n f s = some t) : Good t :=
  forLoop_inv_of_eq (fun _ s => Good s) h h0 (fun i s s' _ hg e => hp i s s' hg e)

/-- The sizes and the number of elements. -/
def Like (w h : Nat) (t : Tensor H) : Prop :=
  t.width = w ∧ t.height = h ∧ t.maps = 2 ∧ t.samples = 1 ∧ t.data.length = 2 * w * h

omit [Zero H] in
theorem put_like {w h x y m s : Nat} {v : H} {t u : Tensor H} (ht : Like w h t) (e : t.put x y m s v = some u) :
    Like w h u := by
  unfold Tensor.put wr at e
  split at e
  · injection e with e
    subst e
    obtain ⟨h1, h2, h3, h4, h5⟩ := ht
    exact ⟨h1, h2, h3, h4, by simp [h5]⟩
  · cases e

omit [Zero H] in
theorem put2_like {w h x y : Nat} {a b : H} {t u : Tensor H} (ht : Like w h t) (e : put2 x y a b t = some u) :
    Like w h u := by
  obtain ⟨v, e1, e2⟩ := Option.bind_eq_some_iff.1 e
  exact put_like (put_like ht e1) e2

/-- With padding below the image and a tensor that is higher than wide, the last assignment is outside the tensor. -/
theorem coordinates_undefined (rel : Nat → Nat → H) {ow oh w h : Nat} {t : Tensor H} (ht : Like w h t) (hoh : oh < h)
    (hw : w < h) : coordinates rel ow oh w h t = none := by
  unfold coordinates
  cases e : forLoop oh (fun y helper =>
      (forLoop ow (fun x => put2 x y (rel x ow) (rel y oh)) helper).bind
      (forRange ow w fun x => put2 x y 0 0)) t with
  | none => rfl
  | some u =>
    have hu : Like w h u := forLoop_good (Like w h) ht (by
      intro y s s' hs e
      obtain ⟨v, e1, e2⟩ := Option.bind_eq_some_iff.1 e
      have hv := forLoop_good (Like w h) hs (fun i s s' hs e => put2_like hs e) e1
      exact forLoop_good (Like w h) hv (fun i s s' hs e => put2_like hs e) e2) e
    rw [Option.bind_some]
    refine forLoop_undefined (Like w h) hu ?_ (i := h - oh - 1) (by omega) ?_
    · intro i s s' hs e
      exact forLoop_good (Like w h) hs (fun i s s' hs e => put2_like hs e) e
    · intro s hs
      refine forLoop_undefined (Like w h) hs (fun i s s' hs e => put2_like hs e) (i := h - 1) (by omega) ?_
      intro s hs
      unfold put2
      cases e : s.put (h - 1) (oh + (h - oh - 1)) 0 0 0 with
      | none => rfl
      | some v =>
        obtain ⟨h1, h2, h3, h4, h5⟩ := put_like hs e
        rw [Option.bind_some]
        unfold Tensor.put wr
        rw [if_neg]
        · rfl
        · rw [h5, offset_eq, h1, h2, h3]
          have : oh + (h - oh - 1) = h - 1 := by omega
          rw [this]
          obtain ⟨k, rfl⟩ : ∃ k, h = k + 1 := ⟨h - 1, by omega⟩
          rw [Nat.add_sub_cancel]
          have e2 : ((0 * 2 + 1) * (k + 1) + k) * w + k = 2 * w * (k + 1) + (k - w) := by
            obtain ⟨d, rfl⟩ : ∃ d, k = w + d := ⟨k - w, by omega⟩
            rw [Nat.add_sub_cancel_left]
            ring
          rw [e2]
          omega

theorem crop_spec {w h : Nat} (hw : 0 < w) (hh : 0 < h) {image : Tensor ℚ} (hi : image.WF) (hm : image.maps = 3)
    (hs : image.samples = 1) (h1 : w ≤ image.width) (h2 : h ≤ image.height) :
    ∃ u, crop w h image = some u ∧ u.samples = 1 ∧ u.width = w ∧ u.height = h ∧ u.maps = 3 ∧ u.WF ∧
      ∀ x y m, x < w → y < h → m < 3 → u.get x y m 0 = image.get x y m 0 := by
  unfold crop
  rw [blank_spec hw hh (by omega)]
  have hwf := replicate_wf (w := w) (h := h) (m := 3) (0 : ℚ)
  obtain ⟨u, e, q, k1, k2⟩ := nest_rows hwf (f := fun _ m y x small =>
      (image.get x y m 0).bind fun v => small.put x y m 0 v) (v := fun x y m _ => image.val x y m 0) (by
    rintro s m y x u ⟨g1, g2, g3, g4⟩ _
    have g5 : s = 0 := Nat.lt_one_iff.1 g4
    subst g5
    dsimp only at g1 g2 g3
    rw [get_eq_val hi ⟨by omega, by omega, by omega, by omega⟩]
    rfl)
  obtain ⟨q1, q2, q3, q4⟩ := q
  refine ⟨u, ?_, q1.symm, q2.symm, q3.symm, q4.symm, k1, ?_⟩
  · rw [← e]
    show _ = (forLoop 0 _ _).bind _
    rfl
  · intro x y m hx hy hm'
    rw [k2 x y m 0 ⟨hx, hy, hm', Nat.one_pos⟩, get_eq_val hi ⟨by omega, by omega, by omega, by omega⟩]

end CN24.Classify
