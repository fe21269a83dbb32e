import Verif.Proof.TensorOps

/-
Property theorems about tensors as values: C01 (addressing), C08 (copying a sample),
C09 (transposition), C10 (maximum queries).
-/

namespace CN24.Props
open CN24 CN24.Tensor

variable {α : Type _}

/-! ## C01 -/

/-- C01: every in-range coordinate has an address below the element count. -/
theorem C01_address_in_range (t : Tensor α) (x y m s : Nat)
    (hx : x < t.width) (hy : y < t.height) (hm : m < t.maps) (hs : s < t.samples) :
    t.offset x y m s < t.samples * t.maps * t.width * t.height :=
  offset_lt t ⟨hx, hy, hm, hs⟩

/-- C01: two different in-range coordinates never share an address. -/
theorem C01_address_injective (t : Tensor α) (x y m s x' y' m' s' : Nat)
    (hx : x < t.width) (hy : y < t.height) (hm : m < t.maps) (hs : s < t.samples)
    (hx' : x' < t.width) (hy' : y' < t.height) (hm' : m' < t.maps) (hs' : s' < t.samples)
    (h : t.offset x y m s = t.offset x' y' m' s') : (x, y, m, s) = (x', y', m', s') := by
  obtain ⟨rfl, rfl, rfl, rfl⟩ := offset_inj t ⟨hx, hy, hm, hs⟩ ⟨hx', hy', hm', hs'⟩ h
  rfl

/-- C01: every element belongs to an in-range coordinate. -/
theorem C01_address_surjective (t : Tensor α) (i : Nat)
    (hi : i < t.samples * t.maps * t.width * t.height) :
    ∃ x y m s, x < t.width ∧ y < t.height ∧ m < t.maps ∧ s < t.samples ∧
      t.offset x y m s = i := by
  obtain ⟨x, y, m, s, ⟨h1, h2, h3, h4⟩, h5⟩ := offset_surj t hi
  exact ⟨x, y, m, s, h1, h2, h3, h4, h5⟩

/-- C01: what is written at a coordinate is read back there and nowhere else changes. -/
theorem C01_write_read (t : Tensor α) (hw : t.WF) (x y m s : Nat) (v : α)
    (hin : t.InRange x y m s) :
    ∃ u, t.put x y m s v = some u ∧ u.WF ∧
      ∀ x' y' m' s', t.InRange x' y' m' s' → u.get x' y' m' s' =
        if (x', y', m', s') = (x, y, m, s) then some v else t.get x' y' m' s' := by
  obtain ⟨u, h1, h2, h3, h4, h5⟩ := puts_coord hw (es := [(t.offset x y m s, v)])
    (R := fun x' y' m' s' => (x', y', m', s') = (x, y, m, s)) (val := fun _ _ _ _ => some v)
    (by rintro _ _ _ _ ⟨⟩; exact ⟨hin, rfl⟩)
    (by
      intro i w
      simp only [List.mem_singleton, Prod.mk.injEq]
      constructor
      · rintro ⟨rfl, rfl⟩; exact ⟨x, y, m, s, ⟨rfl, rfl, rfl, rfl⟩, rfl, rfl⟩
      · rintro ⟨_, _, _, _, ⟨rfl, rfl, rfl, rfl⟩, rfl, h⟩; exact ⟨rfl, by simpa using h.symm⟩)
  refine ⟨u, by rw [put_eq_puts (Sh.rfl' t)]; exact h1, h3, ?_⟩
  intro x' y' m' s' hr
  split
  · rename_i h; exact h4 _ _ _ _ h
  · rename_i h; exact h5 _ _ _ _ hr h

example : ({ samples := 2, width := 3, height := 2, maps := 2, data := List.range 24 } :
    Tensor Nat).offset 2 1 1 1 = 23 := by decide

/-! ## C08 -/

/-- C08, exact success condition.  (A tensor without maps has no elements at all, see
`C08_copySample_no_maps`.) -/
theorem C08_copySample_success_iff [Zero α] (source target : Tensor α) (hs : source.WF)
    (ht : target.WF) (i j : Nat) (hm : 0 < source.maps) :
    ∃ ok u, copySample source i target j = some (ok, u) ∧
      (ok = true ↔ (i < source.samples ∧ j < target.samples ∧ source.maps = target.maps ∧
        source.width ≤ target.width ∧ source.height ≤ target.height)) := by
  by_cases h : source.maps = target.maps ∧ i < source.samples ∧ j < target.samples ∧
      source.width ≤ target.width ∧ source.height ≤ target.height
  · obtain ⟨u, h1, _⟩ := copySample_ok hs ht h.1 h.2.1 h.2.2.1 h.2.2.2.1 h.2.2.2.2
    exact ⟨true, u, h1, by simp; omega⟩
  · exact ⟨false, target, copySample_fail hm h, by simp; omega⟩

/-- C08, effect on success: sample `j` of the target is the source sample in its top left
corner and zero elsewhere; every other sample is unchanged. -/
theorem C08_copySample_effect [Zero α] (source target u : Tensor α) (hs : source.WF)
    (ht : target.WF) (i j : Nat) (hm : 0 < source.maps)
    (h : copySample source i target j = some (true, u)) :
    u.samples = target.samples ∧ u.width = target.width ∧ u.height = target.height ∧
    u.maps = target.maps ∧ u.WF ∧
    ∀ x y m s, x < target.width → y < target.height → m < target.maps → s < target.samples →
      u.get x y m s =
        if s = j then
          (if x < source.width ∧ y < source.height then source.get x y m i else some 0)
        else target.get x y m s := by
  by_cases hc : source.maps = target.maps ∧ i < source.samples ∧ j < target.samples ∧
      source.width ≤ target.width ∧ source.height ≤ target.height
  · obtain ⟨u', h1, h2, h3, h4⟩ := copySample_ok hs ht hc.1 hc.2.1 hc.2.2.1 hc.2.2.2.1 hc.2.2.2.2
    rw [h1] at h
    obtain rfl : u' = u := by simpa using h
    exact ⟨h2.1.symm, h2.2.1.symm, h2.2.2.1.symm, h2.2.2.2.symm, h3,
      fun x y m s a b c d => h4 x y m s ⟨a, b, c, d⟩⟩
  · rw [copySample_fail hm hc] at h
    simp at h

/-- C08, frame on failure: nothing changes. -/
theorem C08_copySample_failure [Zero α] (source target u : Tensor α) (hs : source.WF)
    (ht : target.WF) (i j : Nat) (hm : 0 < source.maps)
    (h : copySample source i target j = some (false, u)) : u = target := by
  by_cases hc : source.maps = target.maps ∧ i < source.samples ∧ j < target.samples ∧
      source.width ≤ target.width ∧ source.height ≤ target.height
  · obtain ⟨u', h1, _⟩ := copySample_ok hs ht hc.1 hc.2.1 hc.2.2.1 hc.2.2.2.1 hc.2.2.2.2
    rw [h1] at h; simp at h
  · rw [copySample_fail hm hc] at h
    simpa using h.symm

/-- C08, the empty case: between tensors without maps the call reports success (without
looking at the sample indices) and changes nothing. -/
theorem C08_copySample_no_maps [Zero α] (source target : Tensor α) (hs : source.Valid)
    (ht : target.Valid) (i j : Nat) (h : source.maps = 0) (h' : target.maps = 0) :
    copySample source i target j = some (true, target) := by
  have e1 := hs.2 (by simp [elements, h])
  have e2 := ht.2 (by simp [elements, h'])
  simp [copySample, h, h', e1.2.1, e1.2.2.1, e2.2.1, e2.2.2.1]

/-- C08: copying one map changes exactly that map. -/
theorem C08_copyMap_effect [Zero α] (source target : Tensor α) (hs : source.WF) (ht : target.WF)
    (i j a b : Nat) (hi : i < source.samples) (hj : j < target.samples) (ha : a < source.maps)
    (hb : b < target.maps) (hw : source.width ≤ target.width)
    (hh : source.height ≤ target.height) :
    ∃ u, copyMap source i a target j b = some (true, u) ∧ u.WF ∧
      ∀ x y m s, target.InRange x y m s → u.get x y m s =
        if s = j ∧ m = b then
          (if x < source.width ∧ y < source.height then source.get x y a i else some 0)
        else target.get x y m s := by
  obtain ⟨u, h1, h2, h3, h4, h5, h6⟩ := copyMap_ok hs ht hi hj ha hb hw hh
  refine ⟨u, h1, h3, ?_⟩
  intro x y m s hin
  split
  · rename_i h
    obtain ⟨rfl, rfl⟩ := h
    split
    · rename_i hxy; exact h4 x y hxy.1 hxy.2
    · rename_i hxy; exact h5 x y hin.1 hin.2.1 hxy
  · rename_i h; exact h6 x y m s hin h

/-- Non-vacuity: a 2x2 image copied into the second sample of a 3x2 tensor. -/
example :
    copySample ({ samples := 1, width := 2, height := 2, maps := 1, data := [1, 2, 3, 4] } :
      Tensor Int) 0 { samples := 2, width := 3, height := 2, maps := 1, data := List.replicate 12 9 } 1
    = some (true, ⟨2, 3, 2, 1, [9, 9, 9, 9, 9, 9, 1, 2, 0, 3, 4, 0]⟩) := by decide

/-! ## C09 -/

/-- C09: transposition exchanges width and height and moves (x, y) to (y, x). -/
theorem C09_transpose_moves (t : Tensor α) (hv : t.Valid) :
    ∃ u, t.transpose = some u ∧ u.Valid ∧ u.width = t.height ∧ u.height = t.width ∧
      u.samples = t.samples ∧ u.maps = t.maps ∧
      ∀ x y m s, x < t.width → y < t.height → m < t.maps → s < t.samples →
        u.get y x m s = t.get x y m s := by
  obtain ⟨u, h1, h2, h3, h4, h5, h6, h7⟩ := transpose_spec hv
  exact ⟨u, h1, h2, h5, h6, h3, h4, fun x y m s a b c d => h7 x y m s ⟨a, b, c, d⟩⟩

/-- C09: transposing twice restores the tensor. -/
theorem C09_transpose_involution (t : Tensor α) (hv : t.Valid) :
    t.transpose.bind transpose = some t := by
  obtain ⟨u, h1, h2, h3, h4, h5, h6, h7⟩ := transpose_spec hv
  obtain ⟨w, k1, k2, k3, k4, k5, k6, k7⟩ := transpose_spec h2
  rw [h1, Option.bind_some, k1]
  congr 1
  refine ext_get k2.1 hv.1 ⟨by omega, by omega, by omega, by omega⟩ ?_
  rintro x y m s ⟨hx, hy, hm, hs⟩
  rw [k7 y x m s ⟨by omega, by omega, by omega, by omega⟩,
    h7 x y m s ⟨by omega, by omega, by omega, by omega⟩]

example : ({ samples := 1, width := 3, height := 2, maps := 1, data := [1, 2, 3, 4, 5, 6] } :
    Tensor Nat).transpose =
    some { samples := 1, width := 2, height := 3, maps := 1, data := [1, 4, 2, 5, 3, 6] } := by
  decide
example : ({ samples := 1, width := 3, height := 2, maps := 1, data := [1, 2, 3, 4, 5, 6] } :
    Tensor Nat).Valid := by decide

/-! ## C10 -/

/-- The `i`-th element of a sample. -/
def sampleElem (t : Tensor α) (sample i : Nat) : Option α :=
  t.data[sample * (t.width * t.height * t.maps) + i]?

/-- C10 for `Maximum`: if some element of the sample exceeds `lowest`, the answer is the first
position of the largest element; otherwise it is 0. -/
theorem C10_maximum [LinearOrder α] (lowest : α) (t : Tensor α) (hw : t.WF) (sample : Nat)
    (hs : sample < t.samples) :
    ∃ k, t.maximum lowest sample = some k ∧
      ((∃ i v, i < t.width * t.height * t.maps ∧ sampleElem t sample i = some v ∧ lowest < v) →
        k < t.width * t.height * t.maps ∧ ∃ v, sampleElem t sample k = some v ∧
          ∀ i w, i < t.width * t.height * t.maps → sampleElem t sample i = some w →
            w ≤ v ∧ (i < k → w < v)) ∧
      ((∀ i v, i < t.width * t.height * t.maps → sampleElem t sample i = some v → v ≤ lowest) →
        k = 0) := by
  have hlt : ∀ i, i < t.width * t.height * t.maps →
      sample * (t.width * t.height * t.maps) + i < t.data.length := by
    intro i hi
    have := radix_lt hs hi
    rw [hw]
    have e : t.elements = t.samples * (t.width * t.height * t.maps) := by
      unfold elements; ring
    omega
  by_cases hn : t.width * t.height * t.maps = 0
  · refine ⟨0, by simp [maximum, argmaxLoop, hn], ?_, fun _ => rfl⟩
    rintro ⟨i, v, hi, _⟩; omega
  · let d : α := t.data[0]'(by have := hlt 0 (by omega); omega)
    let val : Nat → α := fun i => t.data.getD (sample * (t.width * t.height * t.maps) + i) d
    have hval : ∀ i, i < t.width * t.height * t.maps →
        sampleElem t sample i = some (val i) := fun i hi => rd_getD d (hlt i hi)
    obtain ⟨k, v, h1, h2⟩ := argmaxLoop_spec (t.width * t.height * t.maps) lowest val
    refine ⟨k, ?_, ?_, ?_⟩
    · unfold maximum
      rw [argmaxLoop_congr (g := fun i => some (val i)) (fun i hi => rd_getD d (hlt i hi)), h1]
      rfl
    · rintro ⟨i, w, hi, hw', hlw⟩
      rw [hval i hi] at hw'
      obtain rfl : val i = w := by simpa using hw'
      rcases h2 with ⟨h2, _, _⟩ | ⟨h2, h3, h4, h5, h6⟩
      · exact absurd hlw (not_lt.2 (h2 i hi))
      · refine ⟨h2, val k, hval k h2, ?_⟩
        intro j u hj hu
        rw [hval j hj] at hu
        obtain rfl : val j = u := by simpa using hu
        exact ⟨h5 j hj, fun hjk => h6 j hjk⟩
    · intro hall
      rcases h2 with ⟨_, h2, _⟩ | ⟨h2, h3, h4, h5, h6⟩
      · exact h2
      · exact absurd h4 (not_lt.2 (hall k _ h2 (hval k h2)))

/-- C10 for `PixelMaximum`: the first map with the largest value at the pixel. -/
theorem C10_pixelMaximum [LinearOrder α] (lowest : α) (t : Tensor α) (hw : t.WF)
    (x y sample : Nat) (hx : x < t.width) (hy : y < t.height) (hs : sample < t.samples) :
    ∃ k, t.pixelMaximum lowest x y sample = some k ∧
      ((∃ c v, c < t.maps ∧ t.get x y c sample = some v ∧ lowest < v) →
        k < t.maps ∧ ∃ v, t.get x y k sample = some v ∧
          ∀ c w, c < t.maps → t.get x y c sample = some w → w ≤ v ∧ (c < k → w < v)) ∧
      ((∀ c v, c < t.maps → t.get x y c sample = some v → v ≤ lowest) → k = 0) := by
  by_cases hn : t.maps = 0
  · refine ⟨0, by simp [pixelMaximum, argmaxLoop, hn], ?_, fun _ => rfl⟩
    rintro ⟨i, v, hi, _⟩; omega
  · obtain ⟨d, _⟩ := get_of_inRange hw (x := x) (y := y) (m := 0) (s := sample)
      ⟨hx, hy, by omega, hs⟩
    let val : Nat → α := fun c => (t.get x y c sample).getD d
    have hval : ∀ c, c < t.maps → t.get x y c sample = some (val c) := by
      intro c hc
      obtain ⟨v, hv⟩ := get_of_inRange hw (x := x) (y := y) (m := c) (s := sample) ⟨hx, hy, hc, hs⟩
      simp [val, hv]
    obtain ⟨k, v, h1, h2⟩ := argmaxLoop_spec t.maps lowest val
    refine ⟨k, ?_, ?_, ?_⟩
    · unfold pixelMaximum
      rw [argmaxLoop_congr (g := fun i => some (val i)) (fun i hi => hval i hi), h1]
      rfl
    · rintro ⟨i, w, hi, hw', hlw⟩
      rw [hval i hi] at hw'
      obtain rfl : val i = w := by simpa using hw'
      rcases h2 with ⟨h2, _, _⟩ | ⟨h2, h3, h4, h5, h6⟩
      · exact absurd hlw (not_lt.2 (h2 i hi))
      · refine ⟨h2, val k, hval k h2, ?_⟩
        intro j u hj hu
        rw [hval j hj] at hu
        obtain rfl : val j = u := by simpa using hu
        exact ⟨h5 j hj, fun hjk => h6 j hjk⟩
    · intro hall
      rcases h2 with ⟨_, h2, _⟩ | ⟨h2, h3, h4, h5, h6⟩
      · exact h2
      · exact absurd h4 (not_lt.2 (hall k _ h2 (hval k h2)))

example : ({ samples := 1, width := 2, height := 1, maps := 3, data := [1, 5, 7, 5, 7, 2] } :
    Tensor Int).pixelMaximum (-1000) 0 0 0 = some 1 := by decide
example : ({ samples := 1, width := 2, height := 1, maps := 3, data := [1, 5, 7, 5, 7, 2] } :
    Tensor Int).maximum (-1000) 0 = some 2 := by decide

end CN24.Props
