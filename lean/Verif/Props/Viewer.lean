import Verif.Model.Viewer
import Verif.Proof.Image
import Verif.Props.Image
import Mathlib.Tactic.Linarith

/-!
C104: the picture of a tensor on the screen.
-/

namespace CN24.Viewer
open CN24 CN24.Image CN24.Tensor
open CN24.Props (forLoop_each)

/-! ### What should be seen -/

/-- The colour of a value of a single map: values above zero are green, up to one. -/
def green (v : ℚ) : Nat → ℚ
  | 1 => min v 1
  | _ => 0

/-- What channel `c` of a pixel should show: a tensor of three maps is a colour image; of others one map is shown. -/
def seen (t : Tensor ℚ) (map sample x y c : Nat) : ℚ :=
  if t.maps = 3 then t.val x y c sample else green (t.val x y map sample) c

/-- The toolkit's buffer has room: rows do not overlap, and the last one need not be complete. -/
structure Room (t : Tensor ℚ) (stride : Nat) (buffer : List Nat) : Prop where
  rows : 3 * t.width ≤ stride
  bytes : ∀ y < t.height, stride * y + 3 * t.width ≤ buffer.length

/-! ### The loops -/

theorem fill {w h stride : Nat} (B : Nat → Nat → Nat → Nat) (body : Nat → Nat → Nat → List Nat → Option (List Nat))
    (buffer : List Nat) (hr : 3 * w ≤ stride) (hb : ∀ y < h, stride * y + 3 * w ≤ buffer.length)
    (hbody : ∀ c y x l, c < 3 → y < h → x < w → body c y x l = wr l (stride * y + (3 * x + c)) (B c y x)) :
    ∃ l, forLoop 3 (fun c => forLoop h fun y => forLoop w fun x => body c y x) buffer = some l ∧ l.length = buffer.length ∧
      (∀ c y x, c < 3 → y < h → x < w → l[stride * y + (3 * x + c)]? = some (B c y x)) ∧
      ∀ j, (∀ y < h, ¬ (stride * y ≤ j ∧ j < stride * y + 3 * w)) → l[j]? = buffer[j]? := by
  have hpos : ∀ {c x}, c < 3 → x < w → 3 * x + c < stride := fun hc hx => by omega
  let L : Nat → Nat → Nat → List (Nat × Nat) := fun c y x => [(stride * y + (3 * x + c), B c y x)]
  have he : forLoop 3 (fun c => forLoop h fun y => forLoop w fun x => body c y x) buffer =
      wrAll ((List.range 3).flatMap fun c => (List.range h).flatMap fun y => (List.range w).flatMap fun x => L c y x) buffer := by
    rw [← forLoop_wrAll]
    refine forLoop_congr' fun c l hc => ?_
    rw [← forLoop_wrAll]
    refine forLoop_congr' fun y l hy => ?_
    rw [← forLoop_wrAll]
    refine forLoop_congr' fun x l hx => ?_
    rw [hbody c y x l hc hy hx, wrAll_singleton]
  have hmem : ∀ j v, (j, v) ∈ ((List.range 3).flatMap fun c => (List.range h).flatMap fun y => (List.range w).flatMap fun x => L c y x) ↔
      ∃ c y x, c < 3 ∧ y < h ∧ x < w ∧ j = stride * y + (3 * x + c) ∧ v = B c y x := by
    intro j v
    simp only [List.mem_flatMap, List.mem_range, L, List.mem_singleton, Prod.mk.injEq]
    constructor
    · rintro ⟨c, hc, y, hy, x, hx, h1, h2⟩
      exact ⟨c, y, x, hc, hy, hx, h1, h2⟩
    · rintro ⟨c, y, x, hc, hy, hx, h1, h2⟩
      exact ⟨c, hc, y, hy, x, hx, h1, h2⟩
  obtain ⟨l, h1, h2, h3, h4⟩ := wrAll_spec
    ((List.range 3).flatMap fun c => (List.range h).flatMap fun y => (List.range w).flatMap fun x => L c y x) buffer (by
      rintro ⟨j, v⟩ hj
      obtain ⟨c, y, x, hc, hy, hx, rfl, -⟩ := (hmem j v).1 hj
      have := hb y hy
      show stride * y + (3 * x + c) < _
      omega)
  refine ⟨l, he.trans h1, h2, fun c y x hc hy hx => ?_, fun j hj => ?_⟩
  · refine h4 _ _ ((hmem _ _).2 ⟨c, y, x, hc, hy, hx, rfl, rfl⟩) fun v' hv' => ?_
    obtain ⟨c', y', x', hc', hy', hx', e, rfl⟩ := (hmem _ _).1 hv'
    have ey : y = y' := by
      have a1 := hpos hc hx
      have a2 := hpos hc' hx'
      have b1 : (stride * y + (3 * x + c)) / stride = y := by
        rw [Nat.mul_add_div (by omega), Nat.div_eq_of_lt a1, Nat.add_zero]
      have b2 : (stride * y' + (3 * x' + c')) / stride = y' := by
        rw [Nat.mul_add_div (by omega), Nat.div_eq_of_lt a2, Nat.add_zero]
      rw [← b1, e, b2]
    subst ey
    have : x = x' ∧ c = c' := by omega
    rw [this.1, this.2]
  · refine h3 j fun v hv => ?_
    obtain ⟨c, y, x, hc, hy, hx, rfl, -⟩ := (hmem _ _).1 hv
    exact hj y hy (by omega)

theorem toUchar_zero : toUchar 0 = some 0 := by decide +kernel

theorem fl_of_neg {v : ℚ} (h : v < 0) : fl v = -fl (-v) := by
  have hn : ¬ 0 ≤ v.num := by rw [Rat.num_nonneg]; linarith
  have hn' : 0 ≤ (-v).num := by rw [Rat.num_nonneg]; linarith
  unfold fl
  rw [if_neg hn, if_pos hn', Rat.neg_num, Rat.neg_den, neg_div]

theorem toUchar_negative {v : ℚ} (h : v ≤ -(1 / 254)) : toUchar v = none := by
  have hneg : 255 * v < 0 := by linarith
  have h1 := (fl_bounds (v := -(255 * v)) (by linarith)).1
  have h2 : fl (255 * v) = -fl (-(255 * v)) := fl_of_neg hneg
  unfold toUchar
  rw [if_neg]
  rintro ⟨h3, -⟩
  rw [h2] at h3
  linarith

/-! ### Property -/

/-- **C104 (the picture).**  If no value to be shown is negative, and none of a colour image is above one, the picture is made
without undefined behaviour.  Every channel of every pixel shows what should be seen, with an error below 1/254, and red and
blue are off for single maps; bytes between the rows keep their contents. -/
theorem C104_picture_partial (t : Tensor ℚ) (hw : t.WF) (stride map sample : Nat) (buffer : List Nat) (hroom : Room t stride buffer)
    (hs : sample < t.samples) (hm : t.maps ≠ 3 → map < t.maps)
    (hv : ∀ x y c, x < t.width → y < t.height → c < 3 → 0 ≤ seen t map sample x y c ∧ seen t map sample x y c ≤ 1) :
    ∃ l, copyTV t stride map sample buffer = some l ∧ l.length = buffer.length ∧
      (∀ x y c, x < t.width → y < t.height → c < 3 → ∃ b < 256, l[stride * y + 3 * x + c]? = some b ∧
        |fromUchar b - seen t map sample x y c| < 1 / 254 ∧ (t.maps ≠ 3 → c ≠ 1 → b = 0)) ∧
      ∀ j, (∀ y < t.height, ¬ (stride * y ≤ j ∧ j < stride * y + 3 * t.width)) → l[j]? = buffer[j]? := by
  have hb : ∀ x y c, x < t.width → y < t.height → c < 3 → ∃ b < 256, toUchar (seen t map sample x y c) = some b ∧
      |fromUchar b - seen t map sample x y c| < 1 / 254 := fun x y c hx hy hc =>
    toUchar_unit (hv x y c hx hy hc).1 (hv x y c hx hy hc).2
  have key : ∃ l, copyTV t stride map sample buffer = some l ∧ l.length = buffer.length ∧
      (∀ c y x, c < 3 → y < t.height → x < t.width → l[stride * y + (3 * x + c)]? = some ((toUchar (seen t map sample x y c)).getD 0)) ∧
      ∀ j, (∀ y < t.height, ¬ (stride * y ≤ j ∧ j < stride * y + 3 * t.width)) → l[j]? = buffer[j]? := by
    unfold copyTV
    by_cases h3 : t.maps = 3
    · rw [if_pos h3]
      refine fill (fun c y x => (toUchar (seen t map sample x y c)).getD 0) _ buffer hroom.rows hroom.bytes ?_
      intro c y x l hc hy hx
      obtain ⟨b, -, h2, -⟩ := hb x y c hx hy hc
      have hg : rd t.data (t.offset 0 y c sample + x) = some (t.val x y c sample) := by
        have := get_eq_val hw (x := x) (y := y) (m := c) (s := sample) ⟨hx, hy, by omega, hs⟩
        unfold Tensor.get at this
        rw [← this]
        congr 1
      have e : seen t map sample x y c = t.val x y c sample := if_pos h3
      rw [hg, Option.bind_some, ← e, h2]
      rfl
    · rw [if_neg h3]
      refine fill (fun c y x => (toUchar (seen t map sample x y c)).getD 0) _ buffer hroom.rows hroom.bytes ?_
      intro c y x l hc hy hx
      obtain ⟨b, -, h2, -⟩ := hb x y c hx hy hc
      have hg : rd t.data (t.offset 0 y map sample + x) = some (t.val x y map sample) := by
        have := get_eq_val hw (x := x) (y := y) (m := map) (s := sample) ⟨hx, hy, hm h3, hs⟩
        unfold Tensor.get at this
        rw [← this]
        congr 1
      have e : ∀ c, seen t map sample x y c = green (t.val x y map sample) c := fun c => if_neg h3
      have hnn : 0 ≤ t.val x y map sample := by
        have := (hv x y 1 hx hy (by omega)).1
        rw [e] at this
        exact (le_min_iff.1 this).1
      have hmb : mapByte c (t.val x y map sample) = toUchar (seen t map sample x y c) := by
        rw [e]
        unfold mapByte
        have hmax : max (min (t.val x y map sample) 1) (-1) = min (t.val x y map sample) 1 :=
          max_eq_left (le_trans (by norm_num) (le_min hnn zero_le_one))
        dsimp only
        rw [hmax]
        have h0 : 0 ≤ min (t.val x y map sample) 1 := le_min hnn zero_le_one
        by_cases hc1 : c = 1
        · subst hc1
          rw [if_pos (Or.inr ⟨h0, rfl⟩)]
          rfl
        · rw [if_neg (by
            rintro (⟨h, -⟩ | ⟨-, h⟩)
            · linarith
            · exact hc1 h)]
          unfold green
          split
          · exact absurd rfl hc1
          · rfl
      rw [hg, Option.bind_some, hmb, h2]
      rfl
  obtain ⟨l, k1, k2, k3, k4⟩ := key
  refine ⟨l, k1, k2, fun x y c hx hy hc => ?_, k4⟩
  obtain ⟨b, h1, h2, h3⟩ := hb x y c hx hy hc
  refine ⟨b, h1, ?_, h3, fun hm3 hc1 => ?_⟩
  · rw [Nat.add_assoc, k3 c y x hc hy hx, h2]
    rfl
  · have e : seen t map sample x y c = 0 := by
      unfold seen
      rw [if_neg hm3]
      unfold green
      split
      · exact absurd rfl hc1
      · rfl
    rw [e, toUchar_zero] at h2
    exact (Option.some.inj h2).symm

/-- **C104, refuted: negative values.**  Values below zero should be red.  Instead a value of -1/254 or less in the map that is
shown, or in any map of a colour image, is undefined behaviour: a negative number is converted to `unsigned char`. -/
theorem C104_negative_undefined (t : Tensor ℚ) (stride map sample : Nat) (buffer : List Nat) (x y c : Nat) (hx : x < t.width)
    (hy : y < t.height) (v : ℚ) (hc : t.maps = 3 ∧ c < 3 ∨ t.maps ≠ 3 ∧ c = map) (hv : t.get x y c sample = some v)
    (hneg : v ≤ -(1 / 254)) : copyTV t stride map sample buffer = none := by
  have hg : rd t.data (t.offset 0 y c sample + x) = some v := hv
  unfold copyTV
  rcases hc with ⟨h3, hc⟩ | ⟨h3, rfl⟩
  · rw [if_pos h3]
    cases h : forLoop 3 _ buffer with
    | none => rfl
    | some l =>
      obtain ⟨a, b, h1⟩ := forLoop_each h c hc
      obtain ⟨a', b', h2⟩ := forLoop_each h1 y hy
      obtain ⟨a'', b'', h3⟩ := forLoop_each h2 x hx
      rw [hg, Option.bind_some, toUchar_negative hneg] at h3
      cases h3
  · rw [if_neg h3]
    cases h : forLoop 3 _ buffer with
    | none => rfl
    | some l =>
      obtain ⟨a, b, h1⟩ := forLoop_each h 0 (by omega)
      obtain ⟨a', b', h2⟩ := forLoop_each h1 y hy
      obtain ⟨a'', b'', h3⟩ := forLoop_each h2 x hx
      have hm : mapByte 0 v = none := by
        unfold mapByte
        have hval : max (min v 1) (-1) ≤ -(1 / 254) := max_le (le_trans (min_le_left _ _) hneg) (by norm_num)
        dsimp only
        rw [if_pos (Or.inl ⟨by linarith, rfl⟩)]
        exact toUchar_negative hval
      rw [hg, Option.bind_some, hm] at h3
      cases h3

/-- C104: the sample is not checked.  Showing one that does not exist, as `tensorTool` does on request, reads outside the tensor. -/
theorem C104_missing_sample_undefined (t : Tensor ℚ) (hw : t.WF) (stride map sample : Nat) (buffer : List Nat) (hx : 0 < t.width)
    (hy : 0 < t.height) (hs : t.samples ≤ sample) : copyTV t stride map sample buffer = none := by
  have hout : ∀ m, rd t.data (t.offset 0 0 m sample + 0) = none := by
    intro m
    unfold rd
    rw [List.getElem?_eq_none]
    rw [hw]
    have : t.samples * t.maps * t.width * t.height ≤ sample * t.maps * t.width * t.height :=
      Nat.mul_le_mul_right _ (Nat.mul_le_mul_right _ (Nat.mul_le_mul_right _ hs))
    unfold Tensor.elements Tensor.offset
    omega
  unfold copyTV
  split
  · cases h : forLoop 3 _ buffer with
    | none => rfl
    | some l =>
      obtain ⟨a, b, h1⟩ := forLoop_each h 0 (by omega)
      obtain ⟨a', b', h2⟩ := forLoop_each h1 0 hy
      obtain ⟨a'', b'', h3⟩ := forLoop_each h2 0 hx
      rw [hout] at h3
      cases h3
  · cases h : forLoop 3 _ buffer with
    | none => rfl
    | some l =>
      obtain ⟨a, b, h1⟩ := forLoop_each h 0 (by omega)
      obtain ⟨a', b', h2⟩ := forLoop_each h1 0 hy
      obtain ⟨a'', b'', h3⟩ := forLoop_each h2 0 hx
      rw [hout] at h3
      cases h3

/-- **C104 (the layer view).**  For every layer output without negative values, each map of each sample gets its own picture, in
order. -/
theorem C104_layer_view_partial (t : Tensor ℚ) (hw : t.WF) (stride : Nat) (blank : List Nat) (hroom : Room t stride blank)
    (h3 : t.maps ≠ 3) (hv : ∀ x y m s, x < t.width → y < t.height → m < t.maps → s < t.samples → 0 ≤ t.val x y m s) :
    ∃ pictures, layerView t stride blank = some pictures ∧ pictures.length = t.samples * t.maps ∧
      ∀ s m, s < t.samples → m < t.maps → ∃ p, pictures[s * t.maps + m]? = some p ∧ copyTV t stride m s blank = some p ∧
        ∀ x y, x < t.width → y < t.height → ∃ b < 256, p[stride * y + 3 * x + 1]? = some b ∧
          |fromUchar b - min (t.val x y m s) 1| < 1 / 254 := by
  have hpic : ∀ s m, s < t.samples → m < t.maps → ∃ p, copyTV t stride m s blank = some p ∧
        ∀ x y, x < t.width → y < t.height → ∃ b < 256, p[stride * y + 3 * x + 1]? = some b ∧
          |fromUchar b - min (t.val x y m s) 1| < 1 / 254 := by
    intro s m hs hm
    obtain ⟨p, p1, -, p3, -⟩ := C104_picture_partial t hw stride m s blank hroom hs (fun _ => hm) (by
      intro x y c hx hy hc
      unfold seen
      rw [if_neg h3]
      unfold green
      split
      · exact ⟨le_min (hv x y m s hx hy hm hs) zero_le_one, min_le_right _ _⟩
      · exact ⟨le_refl _, zero_le_one⟩)
    refine ⟨p, p1, fun x y hx hy => ?_⟩
    obtain ⟨b, b1, b2, b3, -⟩ := p3 x y 1 hx hy (by omega)
    refine ⟨b, b1, b2, ?_⟩
    unfold seen at b3
    rw [if_neg h3] at b3
    exact b3
  let P : Nat → Nat → List Nat := fun s m => (copyTV t stride m s blank).getD []
  have hP : ∀ s m, s < t.samples → m < t.maps → copyTV t stride m s blank = some (P s m) := by
    intro s m hs hm
    obtain ⟨p, hp, -⟩ := hpic s m hs hm
    simp only [P, hp, Option.getD_some]
  obtain ⟨ps, e, l1, l2⟩ := forLoop_inv (n := t.samples) (f := fun sample => forLoop t.maps fun map (pictures : List (List Nat)) =>
      (copyTV t stride map sample blank).map fun p => pictures ++ [p]) (s := [])
    (fun k ps => ps.length = k * t.maps ∧ ∀ s m, s < k → m < t.maps → ps[s * t.maps + m]? = some (P s m))
    ⟨by simp, fun s m hs => absurd hs (by omega)⟩ (by
      rintro k ps hk ⟨q1, q2⟩
      obtain ⟨qs, e, r1, r2, r3⟩ := forLoop_inv (n := t.maps) (f := fun map (pictures : List (List Nat)) =>
        (copyTV t stride map k blank).map fun p => pictures ++ [p]) (s := ps)
        (fun i qs => qs.length = k * t.maps + i ∧ (∀ j, j < k * t.maps → qs[j]? = ps[j]?) ∧
          ∀ m, m < i → qs[k * t.maps + m]? = some (P k m))
        ⟨by rw [q1]; rfl, fun _ _ => rfl, fun m hm => absurd hm (by omega)⟩ (by
          rintro i qs hi ⟨u1, u2, u3⟩
          rw [hP k i hk hi]
          refine ⟨_, rfl, by simp [u1]; omega, fun j hj => ?_, fun m hm => ?_⟩
          · rw [List.getElem?_append_left (by omega)]
            exact u2 j hj
          · by_cases hmi : m = i
            · subst hmi
              rw [List.getElem?_append_right (by omega), u1]
              simp
            · rw [List.getElem?_append_left (by omega)]
              exact u3 m (by omega))
      refine ⟨qs, e, by rw [r1]; ring, fun s m hs hm => ?_⟩
      by_cases hsk : s = k
      · subst hsk
        exact r3 m hm
      · rw [r2 _ ?_]
        · exact q2 s m (by omega) hm
        · have : (s + 1) * t.maps ≤ k * t.maps := Nat.mul_le_mul_right _ (by omega)
          rw [Nat.add_mul] at this
          omega)
  refine ⟨ps, e, l1, fun s m hs hm => ?_⟩
  obtain ⟨p, p1, p2⟩ := hpic s m hs hm
  refine ⟨p, ?_, p1, p2⟩
  rw [l2 s m hs hm]
  simp only [P, p1, Option.getD_some]

/-! ### Examples -/

/-- Two maps of width 2 and height 2, rows 8 bytes apart; 1/2 and 3 (cut off at 1) in the second map. -/
example : copyTV ⟨1, 2, 2, 2, [0, 0, 0, 0, 1 / 2, 0, 0, 3]⟩ 8 1 0 (List.replicate 14 7) =
    some [0, 127, 0, 0, 0, 0, 7, 7, 0, 0, 0, 0, 255, 0] := by decide +kernel
example : Room ⟨1, 2, 2, 2, [0, 0, 0, 0, 1 / 2, 0, 0, 3]⟩ 8 (List.replicate 14 7) :=
  ⟨by decide, fun y hy => by
    have : y < 2 := hy
    show 8 * y + 3 * 2 ≤ _
    rw [List.length_replicate]
    omega⟩

/-- A pixel of a colour image. -/
example : copyTV ⟨1, 1, 1, 3, [1, 1 / 2, 0]⟩ 4 0 0 [9, 9, 9, 9] = some [255, 127, 0, 9] := by decide +kernel

/-- A negative activation. -/
example : (copyTV ⟨1, 2, 1, 1, [1 / 4, -1 / 4]⟩ 8 0 0 (List.replicate 8 0)).isSome = false := by decide +kernel

end CN24.Viewer
