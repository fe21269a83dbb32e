import Verif.Proof.Tensor

namespace CN24
namespace Tensor

variable {α : Type _}

theorem transpose_spec {t : Tensor α} (hv : t.Valid) :
    ∃ u, t.transpose = some u ∧ u.Valid ∧ u.samples = t.samples ∧ u.maps = t.maps ∧
      u.width = t.height ∧ u.height = t.width ∧
      ∀ x y m s, t.InRange x y m s → u.get y x m s = t.get x y m s := by
  obtain ⟨hw, hz⟩ := hv
  unfold transpose
  split
  · rename_i hd
    have he : t.elements = 0 := by rw [← hw, hd]; rfl
    obtain ⟨h1, h2, h3, h4⟩ := hz he
    refine ⟨t, rfl, ⟨hw, hz⟩, rfl, rfl, by omega, by omega, ?_⟩
    rintro x y m s ⟨hx, _⟩
    omega
  · rename_i hd
    have hne : t.elements ≠ 0 := by
      rw [← hw]; exact fun h => hd (List.length_eq_zero_iff.1 h)
    have hel : t.elements = t.samples * t.maps * t.height * t.width := by
      unfold elements; ring
    have hre : reshape t t.samples t.height t.width t.maps =
        some { t with samples := t.samples, width := t.height, height := t.width, maps := t.maps } := by
      simp [reshape, hd, hel]
    rw [hre, Option.bind_some]
    generalize hr : ({ t with samples := t.samples, width := t.height, height := t.width, maps := t.maps } : Tensor α) = r
    have hrw : r.WF := by subst hr; simp only [WF, elements]; rw [hw, hel]
    have rs : r.samples = t.samples := by subst hr; rfl
    have rw_ : r.width = t.height := by subst hr; rfl
    have rh : r.height = t.width := by subst hr; rfl
    have rm : r.maps = t.maps := by subst hr; rfl
    rw [forLoop_puts (t0 := r) (fun s => (List.range r.maps).flatMap fun m =>
      (List.range r.width).flatMap fun x => (List.range r.height).flatMap fun y =>
        ent (r.offset x y m s) (t.get y x m s)) (Sh.rfl' r)]
    · obtain ⟨u, h1, h2, h3, h4, _⟩ := puts_coord hrw
        (R := fun x y m s => r.InRange x y m s) (val := fun x y m s => t.get y x m s)
        (es := (List.range r.samples).flatMap fun s => (List.range r.maps).flatMap fun m =>
          (List.range r.width).flatMap fun x => (List.range r.height).flatMap fun y =>
            ent (r.offset x y m s) (t.get y x m s))
        (by
          rintro x y m s h
          refine ⟨h, get_isSome hw ?_⟩
          obtain ⟨a, b, c, d⟩ := h
          exact ⟨by omega, by omega, by omega, by omega⟩)
        (by
          intro i v
          simp only [List.mem_flatMap, List.mem_range, mem_ent, InRange]
          constructor
          · rintro ⟨s, hs, m, hm, x, hx, y, hy, h1, h2⟩
            exact ⟨x, y, m, s, ⟨hx, hy, hm, hs⟩, h1, h2⟩
          · rintro ⟨x, y, m, s, ⟨hx, hy, hm, hs⟩, h1, h2⟩
            exact ⟨s, hs, m, hm, x, hx, y, hy, h1, h2⟩)
      refine ⟨u, h1, ⟨h3, ?_⟩, by rw [← h2.1, rs], by rw [← h2.2.2.2, rm],
        by rw [← h2.2.1, rw_], by rw [← h2.2.2.1, rh], ?_⟩
      · intro h0
        rw [h2.elements] at h0
        have : r.elements = t.elements := by
          rw [hel]; unfold elements; rw [rs, rm, rw_, rh]
        omega
      · rintro x y m s ⟨hx, hy, hm, hs⟩
        exact h4 y x m s ⟨by omega, by omega, by omega, by omega⟩
    · intro s u hs hu
      refine forLoop_puts _ hu ?_
      intro m u hm hu
      refine forLoop_puts _ hu ?_
      intro x u hx hu
      refine forLoop_puts _ hu ?_
      intro y u hy hu
      exact bind_put_eq hu (get_isSome hw ⟨by omega, by omega, by omega, by omega⟩) _ _ _ _

/-- `CopyMap` when the sample indices exist and the target is large enough. -/
theorem copyMap_ok [Zero α] {source target : Tensor α} (hs : source.WF) (ht : target.WF)
    {i j a b : Nat} (hi : i < source.samples) (hj : j < target.samples) (ha : a < source.maps)
    (hb : b < target.maps) (hw : source.width ≤ target.width)
    (hh : source.height ≤ target.height) :
    ∃ u, copyMap source i a target j b = some (true, u) ∧ Sh target u ∧ u.WF ∧
      (∀ x y, x < source.width → y < source.height → u.get x y b j = source.get x y a i) ∧
      (∀ x y, x < target.width → y < target.height → ¬ (x < source.width ∧ y < source.height) →
        u.get x y b j = some 0) ∧
      (∀ x y m s, target.InRange x y m s → ¬ (s = j ∧ m = b) →
        u.get x y m s = target.get x y m s) := by
  unfold copyMap
  rw [if_neg (by omega)]
  split
  · -- smaller source
    rw [if_neg (by omega)]
    have h1 : ∀ u, Sh target u → (forLoop source.height (fun y t =>
        (forLoop source.width (fun x t =>
          (source.get x y a i).bind fun v => t.put x y b j v) t).bind
        (forRange source.width target.width (fun x t => t.put x y b j 0))) u) =
        u.puts ((List.range source.height).flatMap fun y =>
          ((List.range source.width).flatMap fun x =>
            ent (target.offset x y b j) (source.get x y a i)) ++
          (List.range (target.width - source.width)).flatMap fun x =>
            [(target.offset (source.width + x) y b j, (0 : α))]) := by
      intro u hu
      refine forLoop_puts _ hu ?_
      intro y u hy hu
      rw [forLoop_puts (t0 := target) (fun x => ent (target.offset x y b j) (source.get x y a i)) hu]
      · rw [puts_bind]
        intro u' hu'
        exact forRange_puts (fun x => [(target.offset x y b j, (0 : α))]) (hu.trans hu')
          (fun x u _ _ hu => put_eq_puts hu _ _ _ _ _)
      · intro x u hx hu
        exact bind_put_eq hu (get_isSome hs ⟨hx, hy, ha, hi⟩) _ _ _ _
    have h2 : ∀ u, Sh target u → (forRange source.height target.height (fun y t =>
        forLoop target.width (fun x t => t.put x y b j 0) t) u) =
        u.puts ((List.range (target.height - source.height)).flatMap fun y =>
          (List.range target.width).flatMap fun x =>
            [(target.offset x (source.height + y) b j, (0 : α))]) := by
      intro u hu
      refine forRange_puts (fun y => (List.range target.width).flatMap fun x =>
            [(target.offset x y b j, (0 : α))]) hu ?_
      intro y u _ _ hu
      exact forLoop_puts _ hu (fun x u _ hu => put_eq_puts hu _ _ _ _ _)
    rw [h1 target (Sh.rfl' _)]
    have h3 : ∀ (es fs : List (Nat × α)) (g : Tensor α → Option (Tensor α)),
        (∀ u, Sh target u → g u = u.puts fs) →
        ((target.puts es).bind fun t1 => (g t1).map fun t2 => (true, t2)) =
          (target.puts (es ++ fs)).map fun t2 => (true, t2) := by
      intro es fs g hg
      rw [← puts_bind hg]
      cases target.puts es <;> rfl
    rw [h3 _ _ _ h2]
    obtain ⟨u, e1, e2, e3, e4, e5⟩ := puts_coord ht
      (R := fun x y m s => s = j ∧ m = b ∧ x < target.width ∧ y < target.height)
      (val := fun x y m s => if x < source.width ∧ y < source.height then source.get x y a i
        else some 0)
      (es := ((List.range source.height).flatMap fun y =>
          ((List.range source.width).flatMap fun x =>
            ent (target.offset x y b j) (source.get x y a i)) ++
          (List.range (target.width - source.width)).flatMap fun x =>
            [(target.offset (source.width + x) y b j, (0 : α))]) ++
          ((List.range (target.height - source.height)).flatMap fun y =>
          (List.range target.width).flatMap fun x =>
            [(target.offset x (source.height + y) b j, (0 : α))]))
      (by
        rintro x y m s ⟨rfl, rfl, hx, hy⟩
        refine ⟨⟨hx, hy, hb, hj⟩, ?_⟩
        split
        · rename_i h; exact get_isSome hs ⟨h.1, h.2, ha, hi⟩
        · rfl)
      (by
        intro k v
        simp only [List.mem_append, List.mem_flatMap, List.mem_range, mem_ent, List.mem_singleton,
          Prod.mk.injEq]
        constructor
        · rintro (⟨y, hy, (⟨x, hx, rfl, h⟩ | ⟨x, hx, rfl, rfl⟩)⟩ | ⟨y, hy, x, hx, rfl, rfl⟩)
          · exact ⟨x, y, b, j, ⟨rfl, rfl, by omega, by omega⟩, rfl, by simp [hx, hy, h]⟩
          · exact ⟨_, y, b, j, ⟨rfl, rfl, by omega, by omega⟩, rfl, by simp⟩
          · exact ⟨x, _, b, j, ⟨rfl, rfl, by omega, by omega⟩, rfl, by simp⟩
        · rintro ⟨x, y, m, s, ⟨rfl, rfl, hx, hy⟩, rfl, h⟩
          by_cases hy' : y < source.height
          · left
            refine ⟨y, hy', ?_⟩
            by_cases hx' : x < source.width
            · left; exact ⟨x, hx', rfl, by simpa [hx', hy'] using h⟩
            · right
              refine ⟨x - source.width, by omega, ?_, by simpa [hx', eq_comm] using h⟩
              congr 1; omega
          · right
            refine ⟨y - source.height, by omega, x, hx, ?_, by simpa [hy', eq_comm] using h⟩
            congr 1; omega)
    refine ⟨u, by rw [e1]; rfl, e2, e3, ?_, ?_, ?_⟩
    · intro x y hx hy
      rw [e4 x y b j ⟨rfl, rfl, by omega, by omega⟩, if_pos ⟨hx, hy⟩]
    · intro x y hx hy hn
      rw [e4 x y b j ⟨rfl, rfl, hx, hy⟩, if_neg hn]
    · intro x y m s hin hn
      exact e5 x y m s hin (fun h => hn ⟨h.1, h.2.1⟩)
  · -- equal sizes
    rename_i hne
    have ew : target.width = source.width := by omega
    have eh : target.height = source.height := by omega
    have hsoff : ∀ k, k < source.width * source.height →
        source.offset 0 0 a i + k < source.data.length := by
      intro k hk
      have hd : k / source.width < source.height := by
        rcases Nat.eq_zero_or_pos source.width with h | h
        · simp [h] at hk
        · rw [Nat.div_lt_iff_lt_mul h]; rw [Nat.mul_comm]; exact hk
      have hwpos : 0 < source.width := by
        rcases Nat.eq_zero_or_pos source.width with h | h
        · simp [h] at hk
        · exact h
      have := offset_lt source (x := k % source.width) (y := k / source.width) (m := a) (s := i)
        ⟨Nat.mod_lt _ hwpos, hd, ha, hi⟩
      rw [hs]
      have e : source.offset (k % source.width) (k / source.width) a i =
          source.offset 0 0 a i + k := by
        have := Nat.div_add_mod' k source.width
        simp only [offset]; omega
      omega
    rw [forLoop_puts (t0 := target) (fun k => ent (target.offset 0 0 b j + k)
      (rd source.data (source.offset 0 0 a i + k))) (Sh.rfl' _)
      (fun k u hk _ => bind_putElem_eq (rd_isSome.2 (hsoff k hk)) _)]
    obtain ⟨u, e1, e2, e3, e4, e5⟩ := puts_coord ht
      (R := fun x y m s => s = j ∧ m = b ∧ x < target.width ∧ y < target.height)
      (val := fun x y m s => source.get x y a i)
      (es := (List.range (source.width * source.height)).flatMap fun k =>
        ent (target.offset 0 0 b j + k) (rd source.data (source.offset 0 0 a i + k)))
      (by
        rintro x y m s ⟨rfl, rfl, hx, hy⟩
        exact ⟨⟨hx, hy, hb, hj⟩, get_isSome hs ⟨by omega, by omega, ha, hi⟩⟩)
      (by
        intro k v
        simp only [List.mem_flatMap, List.mem_range, mem_ent]
        constructor
        · rintro ⟨n, hn, rfl, h⟩
          have hwpos : 0 < source.width := by
            rcases Nat.eq_zero_or_pos source.width with h | h
            · simp [h] at hn
            · exact h
          refine ⟨n % source.width, n / source.width, b, j, ⟨rfl, rfl, ?_, ?_⟩, ?_, ?_⟩
          · rw [ew]; exact Nat.mod_lt _ hwpos
          · rw [eh, Nat.div_lt_iff_lt_mul hwpos, Nat.mul_comm]; exact hn
          · have := Nat.div_add_mod' n source.width
            simp only [offset, ew]; omega
          · rw [← h, get]
            congr 1
            have := Nat.div_add_mod' n source.width
            simp only [offset]; omega
        · rintro ⟨x, y, m, s, ⟨rfl, rfl, hx, hy⟩, rfl, h⟩
          refine ⟨y * source.width + x, ?_, ?_, ?_⟩
          · have := radix_lt (a := y) (b := source.height) (n := source.width) (x := x)
              (by omega) (by omega)
            rw [Nat.mul_comm source.width]; exact this
          · simp only [offset, ew]; omega
          · rw [← h, get]
            congr 1
            simp only [offset]; omega)
    refine ⟨u, by rw [e1]; rfl, e2, e3, ?_, ?_, ?_⟩
    · intro x y hx hy
      exact e4 x y b j ⟨rfl, rfl, by omega, by omega⟩
    · intro x y hx hy hn
      omega
    · intro x y m s hin hn
      exact e5 x y m s hin (fun h => hn ⟨h.1, h.2.1⟩)

theorem copyMap_badSample [Zero α] {source target : Tensor α} {i j a b : Nat}
    (h : source.samples ≤ i ∨ target.samples ≤ j) :
    copyMap source i a target j b = some (false, target) := by
  unfold copyMap
  rw [if_pos (by omega)]

theorem copySample_ok [Zero α] {source target : Tensor α} (hs : source.WF) (ht : target.WF)
    {i j : Nat} (hm : source.maps = target.maps) (hi : i < source.samples)
    (hj : j < target.samples) (hw : source.width ≤ target.width)
    (hh : source.height ≤ target.height) :
    ∃ u, copySample source i target j = some (true, u) ∧ Sh target u ∧ u.WF ∧
      ∀ x y m s, target.InRange x y m s → u.get x y m s =
        if s = j then (if x < source.width ∧ y < source.height then source.get x y m i else some 0)
        else target.get x y m s := by
  unfold copySample
  rw [if_neg (by omega), if_neg (by omega)]
  obtain ⟨⟨ok, u⟩, h1, h2, h3, h4, h5⟩ := forLoop_inv
    (n := source.maps) (s := (true, target))
    (f := fun map st => (copyMap source i map st.2 j map).map fun r => (st.1 && r.1, r.2))
    (P := fun k st => st.1 = true ∧ Sh target st.2 ∧ st.2.WF ∧
      ∀ x y m s, target.InRange x y m s → st.2.get x y m s =
        if s = j ∧ m < k then
          (if x < source.width ∧ y < source.height then source.get x y m i else some 0)
        else target.get x y m s)
    ⟨rfl, Sh.rfl' _, ht, by intros; simp⟩
    (by
      rintro k ⟨ok, t⟩ hk ⟨rfl, hsh, hwf, hget⟩
      obtain ⟨u, c1, c2, c3, c4, c5, c6⟩ := copyMap_ok (source := source) (target := t)
        (i := i) (j := j) (a := k) (b := k) hs hwf hi
        (by rw [← hsh.1]; exact hj) hk (by rw [← hsh.2.2.2]; omega) (by rw [← hsh.2.1]; exact hw)
        (by rw [← hsh.2.2.1]; exact hh)
      refine ⟨(true, u), by simp [c1], rfl, hsh.trans c2, c3, ?_⟩
      intro x y m s hin
      have hin' : t.InRange x y m s := hsh.inRange.2 hin
      by_cases hc : s = j ∧ m = k
      · obtain ⟨rfl, rfl⟩ := hc
        rw [if_pos ⟨rfl, by omega⟩]
        split
        · rename_i hxy; exact c4 x y hxy.1 hxy.2
        · rename_i hxy; exact c5 x y hin'.1 hin'.2.1 hxy
      · rw [c6 x y m s hin' hc, hget x y m s hin]
        by_cases hsj : s = j
        · by_cases hmk : m < k
          · have h1 : s = j ∧ m < k := ⟨hsj, hmk⟩
            have h2 : s = j ∧ m < k + 1 := ⟨hsj, by omega⟩
            simp only [h1, h2, and_self, if_true]
          · rw [if_neg (by omega), if_neg (by omega)]
        · rw [if_neg (by simp [hsj]), if_neg (by simp [hsj])])
  simp only at h2 h3 h4 h5
  subst h2
  refine ⟨u, h1, h3, h4, ?_⟩
  intro x y m s hin
  rw [h5 x y m s hin]
  have : m < source.maps := by rw [hm]; exact hin.2.2.1
  simp [this]

theorem copySample_fail [Zero α] {source target : Tensor α}
    {i j : Nat} (hpos : 0 < source.maps)
    (h : ¬ (source.maps = target.maps ∧ i < source.samples ∧ j < target.samples ∧
      source.width ≤ target.width ∧ source.height ≤ target.height)) :
    copySample source i target j = some (false, target) := by
  unfold copySample
  by_cases hm : source.maps = target.maps
  · rw [if_neg (by omega)]
    split
    · rfl
    · have hb : source.samples ≤ i ∨ target.samples ≤ j := by omega
      obtain ⟨st, h1, h2, h3⟩ := forLoop_inv
        (n := source.maps) (s := (true, target))
        (f := fun map st => (copyMap source i map st.2 j map).map fun r => (st.1 && r.1, r.2))
        (P := fun k st => st.2 = target ∧ st.1 = decide (k = 0))
        ⟨rfl, rfl⟩
        (by
          rintro k ⟨ok, t⟩ hk ⟨rfl, _⟩
          refine ⟨(false, t), ?_, rfl, by simp⟩
          simp [copyMap_badSample hb])
      rw [h1]
      obtain ⟨ok, t⟩ := st
      simp only at h2 h3
      subst h2
      rw [h3]
      simp; omega
  · rw [if_pos hm]

/-! ### Search for the maximum -/

section
variable [LinearOrder α]

theorem argmaxLoop_spec (n : Nat) (lowest : α) (value : Nat → α) :
    ∃ k v, argmaxLoop n lowest (fun i => some (value i)) = some (k, v) ∧
      (((∀ i, i < n → value i ≤ lowest) ∧ k = 0 ∧ v = lowest) ∨
       (k < n ∧ v = value k ∧ lowest < value k ∧ (∀ i, i < n → value i ≤ value k) ∧
         ∀ i, i < k → value i < value k)) := by
  unfold argmaxLoop
  obtain ⟨⟨k, v⟩, h1, h2⟩ := forLoop_inv (n := n) (s := ((0, lowest) : Nat × α))
    (f := fun (i : Nat) (st : Nat × α) => (some (value i)).map fun v => if st.2 < v then (i, v) else st)
    (P := fun n st => (((∀ i, i < n → value i ≤ lowest) ∧ st.1 = 0 ∧ st.2 = lowest) ∨
       (st.1 < n ∧ st.2 = value st.1 ∧ lowest < value st.1 ∧
         (∀ i, i < n → value i ≤ value st.1) ∧ ∀ i, i < st.1 → value i < value st.1)))
    (Or.inl ⟨by simp, rfl, rfl⟩)
    (by
      rintro i ⟨k, v⟩ hi h
      refine ⟨_, rfl, ?_⟩
      simp only at h ⊢
      by_cases hlt : v < value i
      · rw [if_pos hlt]
        right
        rcases h with ⟨h1, h2, h3⟩ | ⟨h1, h2, h3, h4, h5⟩
        · subst h3
          refine ⟨by simp, rfl, hlt, ?_, ?_⟩
          · intro j hj
            rcases Nat.lt_succ_iff_lt_or_eq.1 hj with hj | rfl
            · exact le_of_lt (lt_of_le_of_lt (h1 j hj) hlt)
            · exact le_refl _
          · intro j hj; exact lt_of_le_of_lt (h1 j hj) hlt
        · subst h2
          refine ⟨by simp, rfl, lt_trans h3 hlt, ?_, ?_⟩
          · intro j hj
            rcases Nat.lt_succ_iff_lt_or_eq.1 hj with hj | rfl
            · exact le_of_lt (lt_of_le_of_lt (h4 j hj) hlt)
            · exact le_refl _
          · intro j hj; exact lt_of_le_of_lt (h4 j hj) hlt
      · rw [if_neg hlt]
        have hle : value i ≤ v := not_lt.1 hlt
        rcases h with ⟨h1, h2, h3⟩ | ⟨h1, h2, h3, h4, h5⟩
        · left
          refine ⟨?_, h2, h3⟩
          intro j hj
          rcases Nat.lt_succ_iff_lt_or_eq.1 hj with hj | rfl
          · exact h1 j hj
          · exact h3 ▸ hle
        · right
          refine ⟨by omega, h2, h3, ?_, h5⟩
          intro j hj
          rcases Nat.lt_succ_iff_lt_or_eq.1 hj with hj | rfl
          · exact h4 j hj
          · exact h2 ▸ hle)
  exact ⟨k, v, h1, h2⟩

theorem argmaxLoop_congr {n : Nat} {lowest : α} {f g : Nat → Option α}
    (h : ∀ i, i < n → f i = g i) : argmaxLoop n lowest f = argmaxLoop n lowest g := by
  unfold argmaxLoop
  exact forLoop_congr' (fun i s hi => by rw [h i hi])

end

end Tensor
end CN24
