import Verif.Model.Tensor
import Mathlib.Tactic.Ring
import Mathlib.Algebra.Order.Ring.Nat

namespace CN24
namespace Tensor

variable {α : Type _}

/-! ### Addresses -/

theorem offset_eq (t : Tensor α) (x y m s : Nat) :
    t.offset x y m s = ((s * t.maps + m) * t.height + y) * t.width + x := by
  unfold offset; ring

theorem elements_eq (t : Tensor α) : t.elements = ((t.samples * t.maps) * t.height) * t.width := by
  unfold elements; ring

theorem radix_lt {a b n x : Nat} (ha : a < b) (hx : x < n) : a * n + x < b * n := by
  have : (a + 1) * n ≤ b * n := Nat.mul_le_mul_right n ha
  have e : (a + 1) * n = a * n + n := by ring
  omega

theorem radix_inj {a b n x y : Nat} (hx : x < n) (hy : y < n) (h : a * n + x = b * n + y) :
    a = b ∧ x = y := by
  have h1 : (a * n + x) / n = a := by
    rw [Nat.add_comm, Nat.add_mul_div_right _ _ (by omega), Nat.div_eq_of_lt hx]; simp
  have h2 : (b * n + y) / n = b := by
    rw [Nat.add_comm, Nat.add_mul_div_right _ _ (by omega), Nat.div_eq_of_lt hy]; simp
  have : a = b := by rw [← h1, h, h2]
  subst this
  exact ⟨rfl, by omega⟩

theorem offset_lt (t : Tensor α) {x y m s : Nat} (h : t.InRange x y m s) :
    t.offset x y m s < t.elements := by
  obtain ⟨hx, hy, hm, hs⟩ := h
  rw [offset_eq, elements_eq]
  exact radix_lt (radix_lt (radix_lt hs hm) hy) hx

theorem offset_inj (t : Tensor α) {x y m s x' y' m' s' : Nat} (h : t.InRange x y m s)
    (h' : t.InRange x' y' m' s') (e : t.offset x y m s = t.offset x' y' m' s') :
    x = x' ∧ y = y' ∧ m = m' ∧ s = s' := by
  obtain ⟨hx, hy, hm, hs⟩ := h
  obtain ⟨hx', hy', hm', hs'⟩ := h'
  rw [offset_eq, offset_eq] at e
  obtain ⟨e1, e2⟩ := radix_inj hx hx' e
  obtain ⟨e3, e4⟩ := radix_inj hy hy' e1
  obtain ⟨e5, e6⟩ := radix_inj hm hm' e3
  exact ⟨e2, e4, e6, e5⟩

theorem offset_inj' (t : Tensor α) {x y m s x' y' m' s' : Nat} (h : t.InRange x y m s)
    (h' : t.InRange x' y' m' s') :
    t.offset x y m s = t.offset x' y' m' s' ↔ (x = x' ∧ y = y' ∧ m = m' ∧ s = s') :=
  ⟨offset_inj t h h', by rintro ⟨rfl, rfl, rfl, rfl⟩; rfl⟩

theorem offset_surj (t : Tensor α) {i : Nat} (h : i < t.elements) :
    ∃ x y m s, t.InRange x y m s ∧ t.offset x y m s = i := by
  have hpos : 0 < t.elements := by omega
  have hw : 0 < t.width := by
    rcases Nat.eq_zero_or_pos t.width with h | h
    · simp [elements, h] at hpos
    · exact h
  have hh : 0 < t.height := by
    rcases Nat.eq_zero_or_pos t.height with h | h
    · simp [elements, h] at hpos
    · exact h
  have hm : 0 < t.maps := by
    rcases Nat.eq_zero_or_pos t.maps with h | h
    · simp [elements, h] at hpos
    · exact h
  rw [elements_eq] at h
  refine ⟨i % t.width, i / t.width % t.height, i / t.width / t.height % t.maps,
    i / t.width / t.height / t.maps, ⟨Nat.mod_lt _ hw, Nat.mod_lt _ hh, Nat.mod_lt _ hm, ?_⟩, ?_⟩
  · rw [Nat.div_lt_iff_lt_mul hm, Nat.div_lt_iff_lt_mul hh, Nat.div_lt_iff_lt_mul hw]; exact h
  · rw [offset_eq]
    rw [Nat.div_add_mod' (i / t.width / t.height) t.maps, Nat.div_add_mod' (i / t.width) t.height,
      Nat.div_add_mod' i t.width]

/-! ### Same shape -/

/-- Equal dimensions. -/
def Sh {β : Type _} (t : Tensor α) (u : Tensor β) : Prop :=
  t.samples = u.samples ∧ t.width = u.width ∧ t.height = u.height ∧ t.maps = u.maps

theorem Sh.rfl' (t : Tensor α) : Sh t t := ⟨rfl, rfl, rfl, rfl⟩

theorem Sh.symm {β : Type _} {t : Tensor α} {u : Tensor β} (h : Sh t u) : Sh u t :=
  ⟨h.1.symm, h.2.1.symm, h.2.2.1.symm, h.2.2.2.symm⟩

theorem Sh.trans {β γ : Type _} {t : Tensor α} {u : Tensor β} {v : Tensor γ} (h : Sh t u) (k : Sh u v) : Sh t v :=
  ⟨h.1.trans k.1, h.2.1.trans k.2.1, h.2.2.1.trans k.2.2.1, h.2.2.2.trans k.2.2.2⟩

theorem Sh.offset {β : Type _} {t : Tensor α} {u : Tensor β} (h : Sh t u) (x y m s : Nat) :
    u.offset x y m s = t.offset x y m s := by
  obtain ⟨_, h2, h3, h4⟩ := h
  simp [Tensor.offset, h2, h3, h4]

theorem Sh.elements {β : Type _} {t : Tensor α} {u : Tensor β} (h : Sh t u) : u.elements = t.elements := by
  obtain ⟨h1, h2, h3, h4⟩ := h
  simp [Tensor.elements, h1, h2, h3, h4]

theorem Sh.inRange {β : Type _} {t : Tensor α} {u : Tensor β} (h : Sh t u) {x y m s : Nat} :
    u.InRange x y m s ↔ t.InRange x y m s := by
  obtain ⟨h1, h2, h3, h4⟩ := h
  simp [Tensor.InRange, h1, h2, h3, h4]

/-! ### Sequences of writes to a tensor -/

/-- A straight-line sequence of writes by element number. -/
def puts (es : List (Nat × α)) (t : Tensor α) : Option (Tensor α) :=
  (wrAll es t.data).map (fun d => { t with data := d })

@[simp] theorem puts_nil (t : Tensor α) : puts [] t = some t := rfl

theorem puts_sh {es : List (Nat × α)} {t u : Tensor α} (h : puts es t = some u) : Sh t u := by
  simp only [puts, Option.map_eq_some_iff] at h
  obtain ⟨d, _, rfl⟩ := h
  exact ⟨rfl, rfl, rfl, rfl⟩

theorem put_eq_puts {t0 t : Tensor α} (h : Sh t0 t) (x y m s : Nat) (v : α) :
    t.put x y m s v = t.puts [(t0.offset x y m s, v)] := by
  simp [put, puts, wrAll_singleton, h.offset]

theorem putElem_eq_puts (t : Tensor α) (i : Nat) (v : α) :
    t.putElem i v = t.puts [(i, v)] := by
  simp [putElem, puts, wrAll_singleton]

theorem puts_bind {es fs : List (Nat × α)} {t : Tensor α} {g : Tensor α → Option (Tensor α)}
    (h : ∀ u, Sh t u → g u = u.puts fs) : (t.puts es).bind g = t.puts (es ++ fs) := by
  simp only [puts, wrAll_append]
  cases wrAll es t.data with
  | none => rfl
  | some d => simpa [puts] using h { t with data := d } ⟨rfl, rfl, rfl, rfl⟩

/-- A loop whose iterations are write sequences is one write sequence. -/
theorem forLoop_puts {t0 t : Tensor α} {n : Nat} {f : Nat → Tensor α → Option (Tensor α)}
    (L : Nat → List (Nat × α)) (ht : Sh t0 t)
    (h : ∀ i u, i < n → Sh t0 u → f i u = u.puts (L i)) :
    forLoop n f t = t.puts ((List.range n).flatMap L) := by
  induction n with
  | zero => rfl
  | succ n ih =>
    rw [forLoop_succ, ih (fun i u hi => h i u (by omega)), List.range_succ, List.flatMap_append,
      puts_bind (fs := L n) (fun u hu => h n u (by omega) (ht.trans hu))]
    simp

theorem forRange_puts {t0 t : Tensor α} {a b : Nat} {f : Nat → Tensor α → Option (Tensor α)}
    (L : Nat → List (Nat × α)) (ht : Sh t0 t)
    (h : ∀ i u, a ≤ i → i < b → Sh t0 u → f i u = u.puts (L i)) :
    forRange a b f t = t.puts ((List.range (b - a)).flatMap (fun i => L (a + i))) :=
  forLoop_puts (fun i => L (a + i)) ht (fun i u hi hu => h (a + i) u (by omega) (by omega) hu)

/-- Effect of a write sequence on elements. -/
theorem puts_spec {es : List (Nat × α)} {t : Tensor α} (hb : ∀ e ∈ es, e.1 < t.data.length) :
    ∃ u, t.puts es = some u ∧ Sh t u ∧ u.data.length = t.data.length ∧
      (∀ j, (∀ v, (j, v) ∉ es) → u.data[j]? = t.data[j]?) ∧
      (∀ j v, (j, v) ∈ es → (∀ v', (j, v') ∈ es → v' = v) → u.data[j]? = some v) := by
  obtain ⟨d, h1, h2, h3, h4⟩ := wrAll_spec es t.data hb
  exact ⟨{ t with data := d }, by simp [puts, h1], ⟨rfl, rfl, rfl, rfl⟩, h2, h3, h4⟩

theorem get_of_inRange {t : Tensor α} (hw : t.WF) {x y m s : Nat} (h : t.InRange x y m s) :
    ∃ v, t.get x y m s = some v := by
  have hl : t.offset x y m s < t.data.length := by rw [hw]; exact offset_lt t h
  exact ⟨_, rd_eq_some hl⟩

/-- Two tensors of one shape that agree at every coordinate are equal. -/
theorem ext_get {t u : Tensor α} (ht : t.WF) (hu : u.WF) (hs : Sh t u)
    (h : ∀ x y m s, t.InRange x y m s → t.get x y m s = u.get x y m s) : t = u := by
  have hd : t.data = u.data := by
    apply List.ext_getElem?
    intro i
    by_cases hi : i < t.elements
    · obtain ⟨x, y, m, s, hr, rfl⟩ := offset_surj t hi
      have := h x y m s hr
      simpa [get, rd, hs.offset] using this
    · have e1 : t.data.length ≤ i := by rw [ht]; omega
      have e2 : u.data.length ≤ i := by rw [hu, hs.elements]; omega
      simp [e1, e2]
  obtain ⟨h1, h2, h3, h4⟩ := hs
  cases t; cases u; simp_all

/-- The write of an optional value at an address (no write if there is no value). -/
def ent (o : Nat) (v : Option α) : List (Nat × α) := (v.map (fun w => (o, w))).toList

@[simp] theorem mem_ent {o i : Nat} {v : Option α} {w : α} :
    (i, w) ∈ ent o v ↔ i = o ∧ v = some w := by
  cases v <;> simp [ent, eq_comm]

theorem bind_put_eq {t0 t : Tensor α} (h : Sh t0 t) {v : Option α} (hv : v.isSome)
    (x y m s : Nat) :
    (v.bind fun w => t.put x y m s w) = t.puts (ent (t0.offset x y m s) v) := by
  obtain ⟨w, rfl⟩ := Option.isSome_iff_exists.1 hv
  simp [put_eq_puts h, ent]

theorem bind_putElem_eq {t : Tensor α} {v : Option α} (hv : v.isSome) (i : Nat) :
    (v.bind fun w => t.putElem i w) = t.puts (ent i v) := by
  obtain ⟨w, rfl⟩ := Option.isSome_iff_exists.1 hv
  simp [putElem_eq_puts, ent]

theorem get_isSome {t : Tensor α} (hw : t.WF) {x y m s : Nat} (h : t.InRange x y m s) :
    (t.get x y m s).isSome := by
  obtain ⟨v, hv⟩ := get_of_inRange hw h
  simp [hv]

/-- The form in which nested loops writing coordinates are used: the writes `es` are exactly
the writes of `val c` at the address of `c` for the coordinates with `R c`. -/
theorem puts_coord {t : Tensor α} (hw : t.WF) {es : List (Nat × α)}
    (R : Nat → Nat → Nat → Nat → Prop) (val : Nat → Nat → Nat → Nat → Option α)
    (hR : ∀ x y m s, R x y m s → t.InRange x y m s ∧ (val x y m s).isSome)
    (hes : ∀ i v, (i, v) ∈ es ↔
      ∃ x y m s, R x y m s ∧ i = t.offset x y m s ∧ val x y m s = some v) :
    ∃ u, t.puts es = some u ∧ Sh t u ∧ u.WF ∧
      (∀ x y m s, R x y m s → u.get x y m s = val x y m s) ∧
      (∀ x y m s, t.InRange x y m s → ¬ R x y m s → u.get x y m s = t.get x y m s) := by
  obtain ⟨u, h1, h2, h3, h4, h5⟩ := puts_spec (es := es) (t := t) (by
    rintro ⟨i, v⟩ he
    obtain ⟨x, y, m, s, hr, rfl, _⟩ := (hes i v).1 he
    rw [hw]; exact offset_lt t (hR _ _ _ _ hr).1)
  refine ⟨u, h1, h2, by rw [WF, h3, hw, h2.elements], ?_, ?_⟩
  · intro x y m s hr
    obtain ⟨w, hval⟩ := Option.isSome_iff_exists.1 (hR _ _ _ _ hr).2
    have := h5 (t.offset x y m s) w ((hes _ _).2 ⟨x, y, m, s, hr, rfl, hval⟩) (by
      intro v' hv'
      obtain ⟨x', y', m', s', hr', e, hv⟩ := (hes _ _).1 hv'
      obtain ⟨rfl, rfl, rfl, rfl⟩ := offset_inj t (hR _ _ _ _ hr).1 (hR _ _ _ _ hr').1 e
      simpa [hval] using hv.symm)
    rw [hval]
    simpa [get, rd, h2.offset] using this
  · intro x y m s hin hr
    have := h4 (t.offset x y m s) (by
      intro v hv
      obtain ⟨x', y', m', s', hr', e, _⟩ := (hes _ _).1 hv
      obtain ⟨rfl, rfl, rfl, rfl⟩ := offset_inj t hin (hR _ _ _ _ hr').1 e
      exact hr hr')
    simpa [get, rd, h2.offset] using this

end Tensor
end CN24
