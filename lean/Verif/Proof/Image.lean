import Verif.Model.Image
import Verif.Base.Nest
import Verif.Base.Writes
import Mathlib.Tactic.Linarith
import Mathlib.Tactic.NormNum
import Mathlib.Tactic.FieldSimp

namespace CN24.Image
open CN24 CN24.Tensor

theorem fresh_wf (p : Pixels) : (fresh p).WF := by
  simp [WF, fresh, elements]

/-- Position of a sample. -/
theorem index_lt {w h ch x y c : Nat} (hx : x < w) (hy : y < h) (hc : c < ch) :
    w * ch * y + ch * x + c < w * h * ch := by
  have h1 : ch * x + c < ch * w := by
    calc ch * x + c < ch * x + ch := by omega
      _ = ch * (x + 1) := by ring
      _ ≤ ch * w := Nat.mul_le_mul_left _ hx
  calc w * ch * y + ch * x + c < w * ch * y + ch * w := by omega
    _ = w * ch * (y + 1) := by ring
    _ ≤ w * ch * h := Nat.mul_le_mul_left _ hy
    _ = w * h * ch := by ring

theorem toTensor_spec (conv : Nat → ℚ) {p : Pixels} (hp : p.data.length = p.width * p.height * p.channels) :
    ∃ t, toTensor conv p = some t ∧ Sh (fresh p) t ∧ t.WF ∧
      ∀ x y c s, (fresh p).InRange x y c s → t.get x y c s =
        some (conv (p.data.getD (p.width * p.channels * y + p.channels * x + c) 0)) := by
  obtain ⟨t, h1, h2, h3, h4⟩ := nest_rows (fresh_wf p) (f := fun _ channel y x t =>
    (rd p.data (p.width * p.channels * y + p.channels * x + channel)).bind fun pixel =>
    t.putElem (t.offset 0 y channel 0 + x) (conv pixel))
    (v := fun x y c _ => conv (p.data.getD (p.width * p.channels * y + p.channels * x + c) 0)) (by
      intro s m y x u hin hu
      obtain ⟨hx, hy, hm, hs⟩ := hin
      rw [rd_getD 0 (by rw [hp]; exact index_lt hx hy hm), Option.bind_some]
      have hs0 : s = 0 := Nat.lt_one_iff.1 hs
      subst hs0
      unfold putElem put
      have : u.offset 0 y m 0 + x = u.offset x y m 0 := by
        unfold offset; ring
      rw [this])
  refine ⟨t, ?_, h2, h3, h4⟩
  rw [← h1]
  show _ = forLoop 1 _ _
  rw [forLoop_succ, forLoop_zero, Option.bind_some]
  rfl

/-- The same for the scanlines of a JPEG image. -/
theorem scanlines_spec {p : Pixels} (hp : p.data.length = p.width * p.height * p.channels) :
    ∃ t, loadJpg (.jpg p) = .done t ∧ Sh (fresh p) t ∧ t.WF ∧
      ∀ x y c s, (fresh p).InRange x y c s → t.get x y c s =
        some (fromUchar (p.data.getD (p.width * p.channels * y + p.channels * x + c) 0)) := by
  let v : Nat → Nat → Nat → ℚ := fun x y c =>
    fromUchar (p.data.getD (p.width * p.channels * y + p.channels * x + c) 0)
  have hbody : ∀ x y c, x < p.width → y < p.height → c < p.channels →
      rd p.data (p.width * p.channels * y + (x * p.channels + c)) =
        some (p.data.getD (p.width * p.channels * y + p.channels * x + c) 0) := by
    intro x y c hx hy hc
    rw [Nat.mul_comm x, ← Nat.add_assoc, rd_getD 0 (by rw [hp]; exact index_lt hx hy hc)]
  obtain ⟨t, e, hu⟩ : ∃ t, forLoop p.height (fun line => forLoop p.channels fun c => forLoop p.width fun x t =>
      (rd p.data (p.width * p.channels * line + (x * p.channels + c))).bind fun sample =>
      t.put x line c 0 (fromUchar sample)) (fresh p) = some t ∧
      Upd (fresh p) t (fun x y c s => if s = 0 then some (v x y c) else none) := by
    refine upd_loop (fresh_wf p) (fun y' x y c s => if s = 0 ∧ y = y' then some (v x y c) else none) _ ?_ ?_ ?_
    · intro y' u hy hu1 hu2
      refine upd_loop hu2 (fun c' x y c s => if s = 0 ∧ y = y' ∧ c = c' then some (v x y c) else none) _ ?_ ?_ ?_
      · intro c' u' hc hu1' hu2'
        refine upd_loop hu2' (fun x' x y c s => if s = 0 ∧ y = y' ∧ c = c' ∧ x = x' then some (v x y c) else none)
          _ ?_ ?_ ?_
        · intro x' u'' hx hu1'' hu2''
          rw [hbody x' y' c' hx hy hc, Option.bind_some]
          obtain ⟨q1, q2, q3, q4⟩ := (hu1.trans hu1').trans hu1''
          obtain ⟨w, ew, hw⟩ := upd_put hu2'' (x := x') (y := y') (m := c') (s := 0)
            ⟨by rw [← q2]; exact hx, by rw [← q3]; exact hy, by rw [← q4]; exact hc, by rw [← q1]; exact Nat.one_pos⟩
            (v x' y' c')
          refine ⟨w, ew, hw.congr ?_⟩
          intro x y c s _
          by_cases h : x = x' ∧ y = y' ∧ c = c' ∧ s = 0
          · obtain ⟨rfl, rfl, rfl, rfl⟩ := h
            rw [if_pos ⟨rfl, rfl, rfl, rfl⟩, if_pos ⟨rfl, rfl, rfl, rfl⟩]
          · rw [if_neg h, if_neg (by tauto)]
        · intro x' x y c s w _ _ h
          split at h
          · rename_i hc; rw [if_pos ⟨hc.1, hc.2.1, hc.2.2.1⟩]; exact h
          · simp at h
        · intro x y c s w hin h
          split at h
          · rename_i hc
            refine ⟨x, ?_, by rw [if_pos ⟨hc.1, hc.2.1, hc.2.2, rfl⟩]; exact h⟩
            have := (hu1.trans hu1').inRange.1 hin
            exact this.1
          · simp at h
      · intro c' x y c s w _ _ h
        split at h
        · rename_i hc; rw [if_pos ⟨hc.1, hc.2.1⟩]; exact h
        · simp at h
      · intro x y c s w hin h
        split at h
        · rename_i hc
          exact ⟨c, (hu1.inRange.1 hin).2.2.1, by rw [if_pos ⟨hc.1, hc.2, rfl⟩]; exact h⟩
        · simp at h
    · intro y' x y c s w _ _ h
      split at h
      · rename_i hc; rw [if_pos hc.1]; exact h
      · simp at h
    · intro x y c s w hin h
      split at h
      · rename_i hc
        exact ⟨y, hin.2.1, by rw [if_pos ⟨hc, rfl⟩]; exact h⟩
      · simp at h
  refine ⟨t, ?_, hu.sh, hu.wf, ?_⟩
  · unfold loadJpg
    dsimp only
    rw [e]
    rfl
  · intro x y c s hin
    exact hu.hit hin (by rw [if_pos (Nat.lt_one_iff.1 hin.2.2.2)])

/-! ### Writing -/

theorem wr_getD {l l' : List Nat} {i : Nat} {v : Nat} (h : wr l i v = some l') :
    l'.length = l.length ∧ ∀ j, l'.getD j 0 = if j = i then v else l.getD j 0 := by
  unfold wr at h
  split at h
  · rename_i hi
    cases h
    refine ⟨List.length_set, fun j => ?_⟩
    rw [List.getD_eq_getElem?_getD, List.getElem?_set]
    by_cases hj : i = j
    · subst hj; simp [hi]
    · rw [if_neg hj, if_neg (Ne.symm hj), List.getD_eq_getElem?_getD]
  · cases h

/-- The byte of a value, zero where the conversion is undefined. -/
def byteOf (t : Tensor ℚ) (x y c : Nat) : Nat := (toUchar (t.val x y c 0)).getD 0

theorem putPixel_spec {t : Tensor ℚ} (hw : t.WF) (hm : t.maps = 3) (hs : t.samples = 1) {x y base : Nat}
    (hx : x < t.width) (hy : y < t.height) {l : List Nat} (hl : base + 3 ≤ l.length)
    (hv : ∀ c < 3, (toUchar (t.val x y c 0)).isSome) :
    ∃ l', putPixel t x y base l = some l' ∧ l'.length = l.length ∧
      ∀ j, l'.getD j 0 = if base ≤ j ∧ j < base + 3 then byteOf t x y (j - base) else l.getD j 0 := by
  obtain ⟨l', e, h1, h2⟩ := forLoop_inv (n := 3) (f := fun c pixels =>
      (t.get x y c 0).bind fun v => (toUchar v).bind fun b => wr pixels (base + c) b) (s := l)
    (fun k l' => l'.length = l.length ∧
      ∀ j, l'.getD j 0 = if base ≤ j ∧ j < base + k then byteOf t x y (j - base) else l.getD j 0)
    ⟨rfl, fun j => by rw [if_neg (by omega)]⟩ (by
      intro k l1 hk ⟨p1, p2⟩
      rw [get_eq_val hw ⟨hx, hy, by omega, by omega⟩, Option.bind_some]
      obtain ⟨b, hb⟩ := Option.isSome_iff_exists.1 (hv k hk)
      rw [hb, Option.bind_some]
      have hi : base + k < l1.length := by omega
      obtain ⟨l2, e2⟩ : ∃ l2, wr l1 (base + k) b = some l2 := ⟨_, by unfold wr; rw [if_pos hi]⟩
      obtain ⟨q1, q2⟩ := wr_getD e2
      refine ⟨l2, e2, by omega, fun j => ?_⟩
      rw [q2, p2]
      by_cases hj : j = base + k
      · subst hj
        rw [if_pos rfl, if_pos (by omega), Nat.add_sub_cancel_left]
        unfold byteOf
        rw [hb]; rfl
      · rw [if_neg hj]
        by_cases hc : base ≤ j ∧ j < base + k
        · rw [if_pos hc, if_pos (by omega)]
        · rw [if_neg hc, if_neg (by omega)])
  exact ⟨l', e, h1, h2⟩

/-- The array that is given to libpng. -/
theorem fromTensor_spec {t : Tensor ℚ} (hw : t.WF) (hm : t.maps = 3) (hs : t.samples = 1)
    (hv : ∀ x y c, x < t.width → y < t.height → c < 3 → (toUchar (t.val x y c 0)).isSome) :
    ∃ l, fromTensor t = some l ∧ l.length = 3 * t.width * t.height ∧
      ∀ x y c, x < t.width → y < t.height → c < 3 →
        l.getD (t.width * 3 * y + 3 * x + c) 0 = byteOf t x y c := by
  let W := t.width
  obtain ⟨l, e, h1, h2⟩ := forLoop_inv (n := t.height) (f := fun y => forLoop t.width fun x =>
      putPixel t x y (3 * t.width * y + 3 * x)) (s := List.replicate (3 * t.width * t.height) 0)
    (fun k l => l.length = 3 * t.width * t.height ∧ ∀ x y c, x < t.width → y < k → c < 3 →
        l.getD (t.width * 3 * y + 3 * x + c) 0 = byteOf t x y c)
    ⟨by simp, fun x y c _ hy => absurd hy (Nat.not_lt_zero _)⟩ (by
      intro y l1 hy ⟨p1, p2⟩
      have hrow : 3 * t.width * y + 3 * t.width ≤ 3 * t.width * t.height := by
        calc 3 * t.width * y + 3 * t.width = 3 * t.width * (y + 1) := by ring
          _ ≤ _ := Nat.mul_le_mul_left _ hy
      obtain ⟨l2, e2, q1, q2, q3⟩ := forLoop_inv (n := t.width) (f := fun x =>
        putPixel t x y (3 * t.width * y + 3 * x)) (s := l1)
        (fun k l => l.length = 3 * t.width * t.height ∧
          (∀ j, j < 3 * t.width * y → l.getD j 0 = l1.getD j 0) ∧ ∀ x c, x < k → c < 3 →
          l.getD (3 * t.width * y + 3 * x + c) 0 = byteOf t x y c)
        ⟨p1, fun _ _ => rfl, fun x c hx => absurd hx (Nat.not_lt_zero _)⟩ (by
          intro x l3 hx ⟨r1, r2, r3⟩
          obtain ⟨l4, e4, u1, u2⟩ := putPixel_spec hw hm hs hx hy (l := l3) (base := 3 * t.width * y + 3 * x)
            (by omega) (fun c hc => hv x y c hx hy hc)
          refine ⟨l4, e4, by omega, fun j hj => ?_, fun x' c hx' hc => ?_⟩
          · rw [u2, if_neg (by omega), r2 j hj]
          · rw [u2]
            by_cases hxx : x' = x
            · subst hxx
              rw [if_pos (by omega), Nat.add_sub_cancel_left]
            · rw [if_neg (by omega), r3 x' c (by omega) hc])
      refine ⟨l2, e2, q1, fun x' y' c hx hy' hc => ?_⟩
      by_cases hyy : y' = y
      · subst hyy
        rw [Nat.mul_comm t.width 3]
        exact q3 x' c hx hc
      · rw [q2 _ ?_, p2 x' y' c hx (by omega) hc]
        have h3 : t.width * 3 * y' + 3 * x' + c < t.width * 3 * (y' + 1) := by
          have : t.width * 3 * (y' + 1) = t.width * 3 * y' + t.width * 3 := by ring
          omega
        have h4 : t.width * 3 * (y' + 1) ≤ t.width * 3 * y := Nat.mul_le_mul_left _ (by omega)
        rw [Nat.mul_comm t.width 3] at h3 h4 ⊢
        omega)
  exact ⟨l, e, h1, h2⟩

/-- The scanlines given to libjpeg hold the same bytes. -/
theorem writeJpg_spec {t : Tensor ℚ} (hw : t.WF) (hm : t.maps = 3) (hs : t.samples = 1)
    (hv : ∀ x y c, x < t.width → y < t.height → c < 3 → (toUchar (t.val x y c 0)).isSome) :
    ∃ ls, writeJpg t = some ls ∧ ls.flatten.length = 3 * t.width * t.height ∧
      ∀ x y c, x < t.width → y < t.height → c < 3 →
        ls.flatten.getD (t.width * 3 * y + 3 * x + c) 0 = byteOf t x y c := by
  obtain ⟨ls, e, h1, h2⟩ := forLoop_inv (n := t.height) (f := fun y (lines : List (List Nat)) =>
      (forLoop t.width (fun x => putPixel t x y (3 * x)) (List.replicate (3 * t.width) 0)).map
        fun l => lines ++ [l]) (s := [])
    (fun k ls => ls.flatten.length = 3 * t.width * k ∧ ∀ x y c, x < t.width → y < k → c < 3 →
        ls.flatten.getD (t.width * 3 * y + 3 * x + c) 0 = byteOf t x y c)
    ⟨by simp, fun x y c _ hy => absurd hy (Nat.not_lt_zero _)⟩ (by
      intro y l1 hy ⟨p1, p2⟩
      obtain ⟨l2, e2, q1, q3⟩ := forLoop_inv (n := t.width) (f := fun x =>
        putPixel t x y (3 * x)) (s := List.replicate (3 * t.width) 0)
        (fun k l => l.length = 3 * t.width ∧ ∀ x c, x < k → c < 3 → l.getD (3 * x + c) 0 = byteOf t x y c)
        ⟨by simp, fun x c hx => absurd hx (Nat.not_lt_zero _)⟩ (by
          intro x l3 hx ⟨r1, r3⟩
          obtain ⟨l4, e4, u1, u2⟩ := putPixel_spec hw hm hs hx hy (l := l3) (base := 3 * x)
            (by omega) (fun c hc => hv x y c hx hy hc)
          refine ⟨l4, e4, by omega, fun x' c hx' hc => ?_⟩
          rw [u2]
          by_cases hxx : x' = x
          · subst hxx
            rw [if_pos (by omega), Nat.add_sub_cancel_left]
          · rw [if_neg (by omega), r3 x' c (by omega) hc])
      refine ⟨l1 ++ [l2], by rw [e2]; rfl, ?_, fun x' y' c hx hy' hc => ?_⟩
      · rw [List.flatten_append, List.length_append, p1]
        simp only [List.flatten_cons, List.flatten_nil, List.append_nil, q1]
        ring
      rw [List.flatten_append, List.getD_eq_getElem?_getD]
      simp only [List.flatten_cons, List.flatten_nil, List.append_nil]
      by_cases hyy : y' = y
      · subst hyy
        rw [List.getElem?_append_right (by rw [p1, Nat.mul_comm t.width 3]; omega), p1, Nat.mul_comm t.width 3,
          Nat.add_assoc, Nat.add_sub_cancel_left, ← List.getD_eq_getElem?_getD]
        exact q3 x' c hx hc
      · rw [List.getElem?_append_left, ← List.getD_eq_getElem?_getD, p2 x' y' c hx (by omega) hc]
        have h3 : t.width * 3 * y' + 3 * x' + c < t.width * 3 * (y' + 1) := by
          have : t.width * 3 * (y' + 1) = t.width * 3 * y' + t.width * 3 := by ring
          omega
        have h4 : t.width * 3 * (y' + 1) ≤ t.width * 3 * y := Nat.mul_le_mul_left _ (by omega)
        rw [p1]
        rw [Nat.mul_comm t.width 3] at h3 h4 ⊢
        omega)
  exact ⟨ls, e, h1, h2⟩

/-- Every position of the array belongs to a sample of a pixel. -/
theorem index_surj {w h i : Nat} (hi : i < 3 * w * h) :
    ∃ x y c, x < w ∧ y < h ∧ c < 3 ∧ i = w * 3 * y + 3 * x + c := by
  have hw : 0 < 3 * w := by
    rcases Nat.eq_zero_or_pos (3 * w) with h0 | h0
    · rw [h0] at hi; omega
    · exact h0
  have h1 := Nat.div_add_mod i (3 * w)
  have h2 := Nat.mod_lt i hw
  have h3 : i / (3 * w) < h := Nat.div_lt_of_lt_mul hi
  refine ⟨i % (3 * w) / 3, i / (3 * w), i % (3 * w) % 3, by omega, h3, by omega, ?_⟩
  rw [Nat.mul_comm w 3]
  omega

/-! ### Accuracy -/

theorem round24_bounds (m : Nat) : round24 m * 8388608 ≤ m * 8388609 ∧ m * 8388607 ≤ round24 m * 8388608 := by
  unfold round24
  dsimp only
  generalize hs : m.log2 + 1 - 24 = s
  by_cases h0 : s = 0
  · subst h0
    simp only [pow_zero, Nat.div_one, Nat.mod_one, Nat.mul_zero, Nat.mul_one]
    rw [if_neg (by omega)]
    omega
  · have hm : m ≠ 0 := by
      rintro rfl
      simp at hs
      omega
    have h1 : 2 ^ m.log2 ≤ m := Nat.log2_self_le hm
    have h2 : m.log2 = 23 + s := by omega
    rw [h2, Nat.pow_add] at h1
    have h3 := Nat.div_add_mod m (2 ^ s)
    have h4 := Nat.mod_lt m (Nat.two_pow_pos s)
    generalize m / 2 ^ s = q at *
    generalize m % 2 ^ s = r at *
    generalize 2 ^ s = P at *
    have h5 : q * P = P * q := Nat.mul_comm _ _
    split
    · rw [Nat.add_mul, h5]
      omega
    · rw [h5]
      omega

theorem fl_bounds {v : ℚ} (hv : 0 ≤ v) : v * (1 - 1 / 8388608) ≤ fl v ∧ fl v ≤ v * (1 + 1 / 8388608) := by
  have hn : 0 ≤ v.num := Rat.num_nonneg.2 hv
  obtain ⟨h1, h2⟩ := round24_bounds v.num.toNat
  unfold fl
  rw [if_pos hn]
  have hd : (0 : ℚ) < v.den := by exact_mod_cast v.den_pos
  have hnum : (v.num.toNat : ℚ) = v * v.den := by
    have : ((v.num.toNat : Int) : ℚ) = v.num := by rw [Int.toNat_of_nonneg hn]
    rw [Rat.mul_den_eq_num]
    exact_mod_cast this
  have h1' : (round24 v.num.toNat : ℚ) * 8388608 ≤ v.num.toNat * 8388609 := by exact_mod_cast h1
  have h2' : (v.num.toNat : ℚ) * 8388607 ≤ round24 v.num.toNat * 8388608 := by exact_mod_cast h2
  rw [hnum] at h1' h2'
  constructor
  · rw [le_div_iff₀ hd]; linarith
  · rw [div_le_iff₀ hd]; linarith

/-- Values between zero and one can be converted, and the byte stands for a value that is smaller by at most
one step. -/
theorem toUchar_unit {v : ℚ} (h0 : 0 ≤ v) (h1 : v ≤ 1) :
    ∃ b < 256, toUchar v = some b ∧ |fromUchar b - v| < 1 / 254 := by
  obtain ⟨l, u⟩ := fl_bounds (v := 255 * v) (by linarith)
  have hl : 0 ≤ fl (255 * v) := by linarith
  have hu : fl (255 * v) < 256 := by linarith
  obtain ⟨b, hb⟩ := Int.eq_ofNat_of_zero_le (Int.floor_nonneg.2 hl)
  have hb1 : (b : ℚ) ≤ fl (255 * v) := by
    have := Int.floor_le (fl (255 * v))
    rw [hb] at this
    exact_mod_cast this
  have hb2 : fl (255 * v) < b + 1 := by
    have := Int.lt_floor_add_one (fl (255 * v))
    rw [hb] at this
    exact_mod_cast this
  have hb3 : b < 256 := by
    have : (b : ℚ) < 256 := by linarith
    exact_mod_cast this
  refine ⟨b, hb3, ?_, ?_⟩
  · unfold toUchar
    rw [if_pos ⟨by linarith, hu⟩, hb]
    rfl
  · unfold fromUchar
    rw [Nat.mod_eq_of_lt hb3]
    have hb0 : (0 : ℚ) ≤ b := Nat.cast_nonneg b
    have hb4 : (b : ℚ) ≤ 255 := by
      have : b ≤ 255 := by omega
      exact_mod_cast this
    obtain ⟨l', u'⟩ := fl_bounds (v := 8421505 / 2147483648 * (b : ℚ)) (by positivity)
    rw [abs_lt]
    constructor <;> linarith

theorem byte_round_trip : ∀ k < 256, toUchar (fromUchar k) = some k := by decide +kernel

theorem fromUchar_mod (k : Nat) : fromUchar (k % 256) = fromUchar k := by
  unfold fromUchar
  rw [Nat.mod_mod]

end CN24.Image
