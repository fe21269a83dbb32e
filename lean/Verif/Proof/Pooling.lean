import Verif.Model.Pooling
import Verif.Base.Nest
import Mathlib.Order.Defs.LinearOrder
import Mathlib.Algebra.BigOperators.Intervals

namespace CN24.Tensor
variable {α : Type _}

theorem clear_spec {t : Tensor α} (hw : t.WF) (v : α) :
    ∃ u, t.clear v none = some u ∧ Sh t u ∧ u.WF ∧
      ∀ x y m s, t.InRange x y m s → u.get x y m s = some v := by
  unfold clear
  rw [forLoop_puts (t0 := t) (fun e => [(e, v)]) (Sh.rfl' t)]
  · obtain ⟨u, h1, h2, h3, h4, _⟩ := puts_indexed (t := t) (ι := Nat)
      (es := (List.range t.elements).flatMap fun e => [(e, v)]) (fun e => e < t.elements) id
      (fun _ => v) (by
        intro i w
        simp only [List.mem_flatMap, List.mem_range, List.mem_singleton, Prod.mk.injEq, id])
      (by intro e he; rw [hw]; exact he) (by intros; rfl)
    refine ⟨u, h1, h2, by rw [WF, h3, hw, h2.elements], ?_⟩
    intro x y m s hin
    have := h4 (t.offset x y m s) (offset_lt t hin)
    simpa [get, rd, h2.offset] using this
  · intro i u _ _
    simp [putElem, puts, wrAll_singleton]

end CN24.Tensor

namespace CN24.Pooling
open CN24 CN24.Tensor

theorem toF32_of_lt {n : Nat} (h : n < 2 ^ 24) : toF32 n = n := by
  unfold toF32; rw [if_pos h]

section
variable {α : Type _} [LinearOrder α]

theorem scan_spec (n : Nat) (lowest : α) (px py : Nat → Nat) (val : Nat → α)
    {f : Nat → α × Nat × Nat → Option (α × Nat × Nat)}
    (hf : ∀ k s, k < n → f k s = some (scanStep (px k) (py k) (val k) s)) :
    ∃ r, forLoop n f (lowest, 0, 0) = some r ∧
      (((∀ k, k < n → val k ≤ lowest) ∧ r = (lowest, 0, 0)) ∨
        ∃ k, k < n ∧ r = (val k, px k, py k) ∧ lowest < val k ∧ ∀ i, i < n → val i ≤ val k) := by
  induction n with
  | zero => exact ⟨_, rfl, Or.inl ⟨by intro k hk; omega, rfl⟩⟩
  | succ n ih =>
    obtain ⟨r, h1, h2⟩ := ih (fun k s hk => hf k s (by omega))
    refine ⟨scanStep (px n) (py n) (val n) r, by rw [forLoop_succ, h1, Option.bind_some, hf n r (by omega)], ?_⟩
    unfold scanStep
    rcases h2 with ⟨h2, rfl⟩ | ⟨k, hk, rfl, hlow, hall⟩
    · by_cases hn : lowest < val n
      · rw [if_pos hn]
        refine Or.inr ⟨n, by omega, rfl, hn, ?_⟩
        intro i hi
        rcases Nat.lt_succ_iff_lt_or_eq.1 hi with h | rfl
        · exact le_trans (h2 i h) hn.le
        · exact le_refl _
      · rw [if_neg hn]
        refine Or.inl ⟨?_, rfl⟩
        intro i hi
        rcases Nat.lt_succ_iff_lt_or_eq.1 hi with h | rfl
        · exact h2 i h
        · exact not_lt.1 hn
    · by_cases hn : val k < val n
      · rw [if_pos hn]
        refine Or.inr ⟨n, by omega, rfl, lt_trans hlow hn, ?_⟩
        intro i hi
        rcases Nat.lt_succ_iff_lt_or_eq.1 hi with h | rfl
        · exact le_trans (hall i h) hn.le
        · exact le_refl _
      · rw [if_neg hn]
        refine Or.inr ⟨k, by omega, rfl, hlow, ?_⟩
        intro i hi
        rcases Nat.lt_succ_iff_lt_or_eq.1 hi with h | rfl
        · exact hall i h
        · exact not_lt.1 hn

/-- What the search in a region finds: nothing above the start value, or a position of the region
with the greatest value. -/
def Found (t : Tensor α) (lowest : α) (x0 y0 rw rh m s : Nat) (r : α × Nat × Nat) : Prop :=
  ((∀ i j w, i < rw → j < rh → t.get (x0 + i) (y0 + j) m s = some w → w ≤ lowest) ∧
    r = (lowest, 0, 0)) ∨
  (∃ i j, i < rw ∧ j < rh ∧ r.2 = (x0 + i, y0 + j) ∧ t.get (x0 + i) (y0 + j) m s = some r.1 ∧
    lowest < r.1 ∧ ∀ i j w, i < rw → j < rh → t.get (x0 + i) (y0 + j) m s = some w → w ≤ r.1)

/-- Both loop orders. -/
theorem region_scan (t : Tensor α) (lowest : α) (x0 y0 rw rh m s : Nat)
    (hin : ∀ i j, i < rw → j < rh → ∃ w, t.get (x0 + i) (y0 + j) m s = some w) :
    (∃ r, forLoop rw (fun i => forLoop rh (fun j st =>
        (t.get (x0 + i) (y0 + j) m s).map fun ival => scanStep (x0 + i) (y0 + j) ival st))
        (lowest, 0, 0) = some r ∧ Found t lowest x0 y0 rw rh m s r) ∧
    (∃ r, forLoop rh (fun j => forLoop rw (fun i st =>
        (t.get (x0 + i) (y0 + j) m s).map fun ival => scanStep (x0 + i) (y0 + j) ival st))
        (lowest, 0, 0) = some r ∧ Found t lowest x0 y0 rw rh m s r) := by
  let v : Nat → Nat → α := fun i j => (t.get (x0 + i) (y0 + j) m s).getD lowest
  have hv : ∀ i j, i < rw → j < rh → t.get (x0 + i) (y0 + j) m s = some (v i j) := by
    intro i j hi hj
    obtain ⟨w, hw⟩ := hin i j hi hj
    simp only [v, hw, Option.getD_some]
  constructor
  · rw [forLoop_flatten]
    obtain ⟨r, h1, h2⟩ := scan_spec (rw * rh) lowest (fun k => x0 + k / rh) (fun k => y0 + k % rh)
      (fun k => v (k / rh) (k % rh))
      (f := fun k st => (t.get (x0 + k / rh) (y0 + k % rh) m s).map fun ival =>
        scanStep (x0 + k / rh) (y0 + k % rh) ival st) (by
      intro k st hk
      have hrh : 0 < rh := by
        rcases Nat.eq_zero_or_pos rh with h | h
        · rw [h] at hk; simp at hk
        · exact h
      rw [hv (k / rh) (k % rh) (Nat.div_lt_of_lt_mul (by rw [Nat.mul_comm]; exact hk)) (Nat.mod_lt _ hrh)]
      rfl)
    refine ⟨r, h1, ?_⟩
    have hk : ∀ i j, i < rw → j < rh → i * rh + j < rw * rh ∧ (i * rh + j) / rh = i ∧
        (i * rh + j) % rh = j := by
      intro i j hi hj
      refine ⟨radix_lt hi hj, ?_, ?_⟩
      · rw [Nat.add_comm, Nat.add_mul_div_right _ _ (by omega), Nat.div_eq_of_lt hj]; omega
      · rw [Nat.add_comm, Nat.add_mul_mod_self_right, Nat.mod_eq_of_lt hj]
    rcases h2 with ⟨h2, rfl⟩ | ⟨k, hk', rfl, hlow, hall⟩
    · left
      refine ⟨?_, rfl⟩
      intro i j w hi hj hw
      obtain ⟨a1, a2, a3⟩ := hk i j hi hj
      have := h2 _ a1
      simp only [a2, a3] at this
      rw [hv i j hi hj] at hw
      injection hw with hw
      rw [← hw]; exact this
    · right
      have hrh : 0 < rh := by
        rcases Nat.eq_zero_or_pos rh with h | h
        · rw [h] at hk'; simp at hk'
        · exact h
      have hi := Nat.div_lt_of_lt_mul (n := rh) (k := rw) (by rw [Nat.mul_comm]; exact hk')
      have hj := Nat.mod_lt k hrh
      refine ⟨k / rh, k % rh, hi, hj, rfl, hv _ _ hi hj, hlow, ?_⟩
      intro i j w hi hj hw
      obtain ⟨a1, a2, a3⟩ := hk i j hi hj
      have := hall _ a1
      simp only [a2, a3] at this
      rw [hv i j hi hj] at hw
      injection hw with hw
      rw [← hw]; exact this
  · rw [forLoop_flatten]
    obtain ⟨r, h1, h2⟩ := scan_spec (rh * rw) lowest (fun k => x0 + k % rw) (fun k => y0 + k / rw)
      (fun k => v (k % rw) (k / rw))
      (f := fun k st => (t.get (x0 + k % rw) (y0 + k / rw) m s).map fun ival =>
        scanStep (x0 + k % rw) (y0 + k / rw) ival st) (by
      intro k st hk
      have hrh : 0 < rw := by
        rcases Nat.eq_zero_or_pos rw with h | h
        · rw [h] at hk; simp at hk
        · exact h
      rw [hv (k % rw) (k / rw) (Nat.mod_lt _ hrh) (Nat.div_lt_of_lt_mul (by rw [Nat.mul_comm]; exact hk))]
      rfl)
    refine ⟨r, h1, ?_⟩
    have hk : ∀ i j, i < rw → j < rh → j * rw + i < rh * rw ∧ (j * rw + i) / rw = j ∧
        (j * rw + i) % rw = i := by
      intro i j hi hj
      refine ⟨radix_lt hj hi, ?_, ?_⟩
      · rw [Nat.add_comm, Nat.add_mul_div_right _ _ (by omega), Nat.div_eq_of_lt hi]; omega
      · rw [Nat.add_comm, Nat.add_mul_mod_self_right, Nat.mod_eq_of_lt hi]
    rcases h2 with ⟨h2, rfl⟩ | ⟨k, hk', rfl, hlow, hall⟩
    · left
      refine ⟨?_, rfl⟩
      intro i j w hi hj hw
      obtain ⟨a1, a2, a3⟩ := hk i j hi hj
      have := h2 _ a1
      simp only [a2, a3] at this
      rw [hv i j hi hj] at hw
      injection hw with hw
      rw [← hw]; exact this
    · right
      have hrw : 0 < rw := by
        rcases Nat.eq_zero_or_pos rw with h | h
        · rw [h] at hk'; simp at hk'
        · exact h
      have hj := Nat.div_lt_of_lt_mul (n := rw) (k := rh) (by rw [Nat.mul_comm]; exact hk')
      have hi := Nat.mod_lt k hrw
      refine ⟨k % rw, k / rw, hi, hj, rfl, hv _ _ hi hj, hlow, ?_⟩
      intro i j w hi hj hw
      obtain ⟨a1, a2, a3⟩ := hk i j hi hj
      have := hall _ a1
      simp only [a2, a3] at this
      rw [hv i j hi hj] at hw
      injection hw with hw
      rw [← hw]; exact this

theorem get_some {t : Tensor α} (hw : t.WF) {x y m s : Nat} (h : t.InRange x y m s) :
    ∃ w, t.get x y m s = some w := by
  unfold Tensor.get
  exact ⟨_, rd_eq_some (by rw [hw]; exact offset_lt t h)⟩

theorem both_put {mx : Tensor Nat} {out : Tensor α} {o : Option (α × Nat × Nat)}
    {r : α × Nat × Nat} (ho : o = some r) (F : α × Nat × Nat → Nat) (x y m s : Nat) :
    (o.bind fun r => (mx.put x y m s (F r)).bind fun mx =>
      (out.put x y m s r.1).map fun out => (mx, out)) =
    both (mx.put x y m s (F r)) (out.put x y m s r.1) := by
  subst ho; rfl

/-- The forward pass of the max-pooling layer. -/
theorem forward_spec {input out : Tensor α} {mx my : Tensor Nat} {lowest : α} {rw rh : Nat}
    (hi : input.WF) (hm : mx.WF) (hy : my.WF) (ho : out.WF) (h1 : Sh out mx) (h2 : Sh out my)
    (hs : out.samples = input.samples) (hmaps : out.maps = input.maps)
    (hw : input.width = out.width * rw) (hh : input.height = out.height * rh) :
    ∃ mx' my' out', forward lowest rw rh input ((mx, my), out) = some ((mx', my'), out') ∧
      Sh out mx' ∧ Sh out my' ∧ Sh out out' ∧ mx'.WF ∧ my'.WF ∧ out'.WF ∧
      ∀ ox oy m s, out.InRange ox oy m s → ∃ r : α × Nat × Nat,
        Found input lowest (ox * rw) (oy * rh) rw rh m s r ∧
        out'.get ox oy m s = some r.1 ∧ mx'.get ox oy m s = some (toF32 r.2.1) ∧
        my'.get ox oy m s = some (toF32 r.2.2) := by
  have hscan : ∀ ox oy m s, out.InRange ox oy m s →
      ∃ r, forLoop rw (fun i => forLoop rh (fun j st =>
        (input.get (ox * rw + i) (oy * rh + j) m s).map fun ival =>
          scanStep (ox * rw + i) (oy * rh + j) ival st)) (lowest, 0, 0) = some r ∧
        Found input lowest (ox * rw) (oy * rh) rw rh m s r := by
    rintro ox oy m s ⟨i1, i2, i3, i4⟩
    refine (region_scan input lowest (ox * rw) (oy * rh) rw rh m s ?_).1
    intro i j hi' hj'
    have e1 := radix_lt i1 hi'
    have e2 := radix_lt i2 hj'
    exact get_some hi ⟨by omega, by omega, by omega, by omega⟩
  have hchoice : ∃ R : Nat → Nat → Nat → Nat → α × Nat × Nat, ∀ ox oy m s, out.InRange ox oy m s →
      forLoop rw (fun i => forLoop rh (fun j st =>
        (input.get (ox * rw + i) (oy * rh + j) m s).map fun ival =>
          scanStep (ox * rw + i) (oy * rh + j) ival st)) (lowest, 0, 0) = some (R ox oy m s) ∧
        Found input lowest (ox * rw) (oy * rh) rw rh m s (R ox oy m s) := by
    refine ⟨fun ox oy m s => (forLoop rw (fun i => forLoop rh (fun j st =>
        (input.get (ox * rw + i) (oy * rh + j) m s).map fun ival =>
          scanStep (ox * rw + i) (oy * rh + j) ival st)) (lowest, 0, 0)).getD (lowest, 0, 0), ?_⟩
    intro ox oy m s hin
    obtain ⟨r, e1, e2⟩ := hscan ox oy m s hin
    simp only [e1, Option.getD_some]
    exact ⟨trivial, e2⟩
  obtain ⟨R, hR⟩ := hchoice
  obtain ⟨mx', a1, a2, a3, a4⟩ := nest_cols hm
    (f := fun s m x y (t : Tensor Nat) => t.put x y m s (toF32 (R x y m s).2.1))
    (v := fun x y m s => toF32 (R x y m s).2.1) (fun _ _ _ _ _ _ _ => rfl)
  obtain ⟨my', b1, b2, b3, b4⟩ := nest_cols hy
    (f := fun s m x y (t : Tensor Nat) => t.put x y m s (toF32 (R x y m s).2.2))
    (v := fun x y m s => toF32 (R x y m s).2.2) (fun _ _ _ _ _ _ _ => rfl)
  obtain ⟨out', c1, c2, c3, c4⟩ := nest_cols ho
    (f := fun s m x y (t : Tensor α) => t.put x y m s (R x y m s).1)
    (v := fun x y m s => (R x y m s).1) (fun _ _ _ _ _ _ _ => rfl)
  have hrun : forward lowest rw rh input ((mx, my), out) = some ((mx', my'), out') := by
    unfold forward
    rw [← hs, ← hmaps]
    simp only
    rw [forLoop_both (g := fun s (p : Tensor Nat × Tensor Nat) => forLoop out.maps (fun m =>
        forLoop out.width (fun x => forLoop out.height (fun y p =>
          both (p.1.put x y m s (toF32 (R x y m s).2.1)) (p.2.put x y m s (toF32 (R x y m s).2.2))))) p)
      (h := fun s => forLoop out.maps fun m => forLoop out.width fun x => forLoop out.height fun y t =>
        t.put x y m s (R x y m s).1)]
    · rw [forLoop_both (g := fun s => forLoop out.maps fun m => forLoop out.width fun x =>
          forLoop out.height fun y t => t.put x y m s (toF32 (R x y m s).2.1))
        (h := fun s => forLoop out.maps fun m => forLoop out.width fun x =>
          forLoop out.height fun y t => t.put x y m s (toF32 (R x y m s).2.2))]
      · rw [c1]
        obtain ⟨p1, p2, p3, p4⟩ := h1
        obtain ⟨q1, q2, q3, q4⟩ := h2
        rw [← p1, ← p2, ← p3, ← p4] at a1
        rw [← q1, ← q2, ← q3, ← q4] at b1
        rw [a1, b1]
        rfl
      · intro s a b hs'
        refine forLoop_both (fun m a b hm' => ?_) a b
        refine forLoop_both (fun x a b hx' => ?_) a b
        refine forLoop_both (fun y a b hy' => ?_) a b
        rfl
    · intro s a b hs'
      refine forLoop_both (fun m a b hm' => ?_) a b
      refine forLoop_both (fun x a b hx' => ?_) a b
      refine forLoop_both (fun y a b hy' => ?_) a b
      rw [(hR x y m s ⟨hx', hy', hm', hs'⟩).1, Option.bind_some]
      unfold both
      cases a.1.put x y m s (toF32 (R x y m s).2.1) with
      | none => rfl
      | some p =>
        simp only [Option.bind_some]
        cases a.2.put x y m s (toF32 (R x y m s).2.2) <;> rfl
  refine ⟨mx', my', out', hrun, h1.trans a2, h2.trans b2, c2, a3, b3, c3, ?_⟩
  intro ox oy m s hin
  have hin' := hin
  obtain ⟨i1, i2, i3, i4⟩ := hin'
  obtain ⟨p1, p2, p3, p4⟩ := h1
  obtain ⟨q1, q2, q3, q4⟩ := h2
  exact ⟨R ox oy m s, (hR ox oy m s hin).2, c4 ox oy m s hin,
    a4 ox oy m s ⟨by omega, by omega, by omega, by omega⟩,
    b4 ox oy m s ⟨by omega, by omega, by omega, by omega⟩⟩

/-- The forward pass of the overlapping max-pooling layer. -/
theorem advForward_spec {input out : Tensor α} {mask : Tensor Nat} {lowest : α} {rw rh sw sh : Nat}
    (hi : input.WF) (hm : mask.WF) (ho : out.WF) (h1 : Sh out mask)
    (hs : out.samples = input.samples) (hmaps : out.maps = input.maps)
    (hw : ∀ ox, ox < out.width → ox * sw + rw ≤ input.width)
    (hh : ∀ oy, oy < out.height → oy * sh + rh ≤ input.height) :
    ∃ mask' out', advForward lowest rw rh sw sh input (mask, out) = some (mask', out') ∧
      Sh out mask' ∧ Sh out out' ∧ mask'.WF ∧ out'.WF ∧
      ∀ ox oy m s, out.InRange ox oy m s → ∃ r : α × Nat × Nat,
        Found input lowest (ox * sw) (oy * sh) rw rh m s r ∧
        out'.get ox oy m s = some r.1 ∧
        mask'.get ox oy m s = some (toF32 (input.width * r.2.2 + r.2.1)) := by
  have hchoice : ∃ R : Nat → Nat → Nat → Nat → α × Nat × Nat, ∀ ox oy m s, out.InRange ox oy m s →
      forLoop rh (fun j => forLoop rw (fun i st =>
        (input.get (ox * sw + i) (oy * sh + j) m s).map fun ival =>
          scanStep (ox * sw + i) (oy * sh + j) ival st)) (lowest, 0, 0) = some (R ox oy m s) ∧
        Found input lowest (ox * sw) (oy * sh) rw rh m s (R ox oy m s) := by
    refine ⟨fun ox oy m s => (forLoop rh (fun j => forLoop rw (fun i st =>
        (input.get (ox * sw + i) (oy * sh + j) m s).map fun ival =>
          scanStep (ox * sw + i) (oy * sh + j) ival st)) (lowest, 0, 0)).getD (lowest, 0, 0), ?_⟩
    rintro ox oy m s ⟨i1, i2, i3, i4⟩
    obtain ⟨r, e1, e2⟩ := (region_scan input lowest (ox * sw) (oy * sh) rw rh m s (by
      intro i j hi' hj'
      have e1 := hw ox i1
      have e2 := hh oy i2
      exact get_some hi ⟨by omega, by omega, by omega, by omega⟩)).2
    simp only [e1, Option.getD_some]
    exact ⟨trivial, e2⟩
  obtain ⟨R, hR⟩ := hchoice
  obtain ⟨mx', a1, a2, a3, a4⟩ := nest_cols hm
    (f := fun s m x y (t : Tensor Nat) =>
      t.put x y m s (toF32 (input.width * (R x y m s).2.2 + (R x y m s).2.1)))
    (v := fun x y m s => toF32 (input.width * (R x y m s).2.2 + (R x y m s).2.1))
    (fun _ _ _ _ _ _ _ => rfl)
  obtain ⟨out', c1, c2, c3, c4⟩ := nest_cols ho
    (f := fun s m x y (t : Tensor α) => t.put x y m s (R x y m s).1)
    (v := fun x y m s => (R x y m s).1) (fun _ _ _ _ _ _ _ => rfl)
  have hrun : advForward lowest rw rh sw sh input (mask, out) = some (mx', out') := by
    unfold advForward
    rw [← hs, ← hmaps]
    simp only
    rw [forLoop_both (g := fun s => forLoop out.maps fun m => forLoop out.width fun x =>
          forLoop out.height fun y t =>
            t.put x y m s (toF32 (input.width * (R x y m s).2.2 + (R x y m s).2.1)))
      (h := fun s => forLoop out.maps fun m => forLoop out.width fun x => forLoop out.height fun y t =>
        t.put x y m s (R x y m s).1)]
    · rw [c1]
      obtain ⟨p1, p2, p3, p4⟩ := h1
      rw [← p1, ← p2, ← p3, ← p4] at a1
      rw [a1]
      rfl
    · intro s a b hs'
      refine forLoop_both (fun m a b hm' => ?_) a b
      refine forLoop_both (fun x a b hx' => ?_) a b
      refine forLoop_both (fun y a b hy' => ?_) a b
      rw [(hR x y m s ⟨hx', hy', hm', hs'⟩).1, Option.bind_some]
      rfl
  refine ⟨mx', out', hrun, h1.trans a2, c2, a3, c3, ?_⟩
  intro ox oy m s hin
  have hin' := hin
  obtain ⟨i1, i2, i3, i4⟩ := hin'
  obtain ⟨p1, p2, p3, p4⟩ := h1
  exact ⟨R ox oy m s, (hR ox oy m s hin).2, c4 ox oy m s hin,
    a4 ox oy m s ⟨by omega, by omega, by omega, by omega⟩⟩

end
end CN24.Pooling
