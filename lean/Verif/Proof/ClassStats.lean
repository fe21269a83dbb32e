import Verif.Model.ClassStats
import Verif.Props.Dataset
import Verif.Props.StatLayers
import Mathlib.Algebra.BigOperators.Group.Finset.Basic
import Mathlib.Algebra.BigOperators.Pi
import Mathlib.Algebra.BigOperators.GroupWithZero.Finset
import Mathlib.Algebra.Order.BigOperators.Group.Finset
import Mathlib.Tactic.Ring
import Mathlib.Tactic.FieldSimp

/-! Lemmas for Props/ClassStats.lean. -/

namespace CN24.ClassStats
open CN24 CN24.Tensor CN24.TensorStreamDataset CN24.Props

variable {R : Type _}

/-- A loop that adds `g i` to what the state represents. -/
theorem forLoop_acc {σ M : Type _} [AddCommMonoid M] {n : Nat} {body : Nat → σ → Option σ}
    {Rep : σ → M → Prop} {g : Nat → M}
    (h : ∀ i s f, i < n → Rep s f → ∃ s', body i s = some s' ∧ Rep s' (f + g i))
    {s : σ} {f : M} (hs : Rep s f) :
    ∃ s', forLoop n body s = some s' ∧ Rep s' (f + ∑ i ∈ Finset.range n, g i) := by
  induction n with
  | zero => exact ⟨s, by simp, by simpa using hs⟩
  | succ n ih =>
    obtain ⟨s1, e1, r1⟩ := ih (fun i s f hi => h i s f (by omega))
    obtain ⟨s2, e2, r2⟩ := h n s1 _ (by omega) r1
    refine ⟨s2, by rw [forLoop_succ, e1, Option.bind_some, e2], ?_⟩
    rw [Finset.sum_range_succ, ← add_assoc]
    exact r2

/-- The arrays hold the two functions. -/
def Rep (classes : Nat) (c : Counts R) (f : (Nat → R) × (Nat → R)) : Prop :=
  c.plain = (List.range classes).map f.1 ∧ c.weighted = (List.range classes).map f.2

theorem add_at [AddCommMonoid R] {classes k : Nat} (hk : k < classes) (f : Nat → R) (w : R) :
    rd ((List.range classes).map f) k = some (f k) ∧
    wr ((List.range classes).map f) k (f k + w) =
      some ((List.range classes).map (f + fun j => if j = k then w else 0)) := by
  constructor
  · simp [rd, hk]
  · unfold wr
    rw [if_pos (by simpa using hk)]
    congr 1
    apply List.ext_getElem?
    intro j
    by_cases hj : j < classes
    · by_cases e : k = j
      · subst e; simp [hk]
      · simp [e, hj, Ne.symm e]
    · by_cases e : k = j
      · omega
      · simp [hj]

section
variable [Field R] [LinearOrder R]

theorem countPixel_rep {lowest : R} {cw : List R} {label weight : Tensor R} {y x classes k : Nat}
    {w q : R} (h1 : label.pixelMaximum lowest x y 0 = some k) (h2 : weight.get x y 0 0 = some w)
    (hk : k < classes) (h3 : cw[k]? = some q) {c : Counts R} {f : (Nat → R) × (Nat → R)}
    (hc : Rep classes c f) :
    ∃ c', countPixel lowest cw label weight y x c = some c' ∧
      Rep classes c' (f + (fun j => if j = k then w else 0, fun j => if j = k then w * q else 0)) := by
  obtain ⟨c1, c2⟩ := hc
  have a := add_at hk f.1 w
  have b := add_at hk f.2 (w * q)
  refine ⟨⟨_, _⟩, ?_, ⟨rfl, rfl⟩⟩
  unfold countPixel
  rw [h1, h2, c1, c2]
  simp only [Option.bind_some, a.1, a.2, b.1]
  rw [show rd cw k = some q from h3, Option.bind_some, b.2]
  rfl

theorem sum_tail {M : Type _} [AddCommMonoid M] {n m : Nat} (h : n ≤ m) (f : Nat → M)
    (hf : ∀ i, n ≤ i → i < m → f i = 0) :
    ∑ i ∈ Finset.range m, f i = ∑ i ∈ Finset.range n, f i := by
  symm
  apply Finset.sum_subset
  · intro i hi
    have := Finset.mem_range.1 hi
    exact Finset.mem_range.2 (by omega)
  · intro i hi hn
    have := Finset.mem_range.1 hi
    exact hf i (by simpa using hn) this

/-- What one pixel adds to the two arrays. -/
def share (k : Nat) (w q : R) : (Nat → R) × (Nat → R) :=
  (fun j => if j = k then w else 0, fun j => if j = k then w * q else 0)

omit [LinearOrder R] in
theorem share_zero (k : Nat) (q : R) : share k 0 q = 0 := by
  unfold share
  ext j <;> simp

theorem countSample_rep {lowest : R} {ef : Nat → Nat → Nat → Nat → R} {ds : Dataset R}
    {classes : Nat} (hcl : ds.labelMaps ≤ classes) {image label : Tensor R}
    (hp : PairFits ds lowest image label) {old o : Outputs R} (hfit : OutputsFit ds 1 o)
    (ho : Holds ef ds image label 0 old o) {cls : Nat → Nat → Nat} {q : Nat → R}
    (hq : ∀ k, k < ds.labelMaps → ds.classWeights[k]? = some (q k))
    (hcls : ∀ x y, x < image.width → y < image.height → FirstBest label x y 0 (cls x y))
    {c : Counts R} {f : (Nat → R) × (Nat → R)} (hc : Rep classes c f) :
    ∃ c', countSample lowest ds o c = some c' ∧
      Rep classes c' (f + ∑ y ∈ Finset.range image.height, ∑ x ∈ Finset.range image.width,
        share (cls x y) (ef x y image.width image.height * q (cls x y)) (q (cls x y))) := by
  obtain ⟨_, ⟨⟨l1, l2, l3, l4⟩, l5⟩, _, ⟨⟨e1, e2, e3, e4⟩, e5⟩⟩ := hfit
  dsimp only at l1 l2 l3 l4 e1 e2 e3 e4
  have p1 := hp.width
  have p2 := hp.height
  have p3 := hp.label_width
  have p4 := hp.label_height
  have p6 := hp.label_maps
  have p7 := hp.some_class
  -- every pixel of the output
  have hpix : ∀ y x, y < ds.maxHeight → x < ds.maxWidth → ∃ k w, o.label.pixelMaximum lowest x y 0 = some k ∧
      k < ds.labelMaps ∧ o.error.get x y 0 0 = some w ∧
      share k w (q k) = if x < image.width ∧ y < image.height then
        share (cls x y) (ef x y image.width image.height * q (cls x y)) (q (cls x y)) else 0 := by
    intro y x hy hx
    obtain ⟨k, k1, k2, k3⟩ := C10_pixelMaximum lowest o.label l5 x y 0 (by omega) (by omega) (by omega)
    have hkm : k < ds.labelMaps := by
      by_cases h : ∃ c v, c < o.label.maps ∧ o.label.get x y c 0 = some v ∧ lowest < v
      · have := (k2 h).1; omega
      · have := k3 (fun c v hc hv => not_lt.1 fun hlt => h ⟨c, v, hc, hv, hlt⟩)
        omega
    by_cases hin : x < image.width ∧ y < image.height
    · have hget : ∀ c, c < label.maps → o.label.get x y c 0 = label.get x y c 0 := by
        intro c hc
        rw [ho.label x y c 0 ⟨by omega, by omega, by omega, by omega⟩, if_pos rfl, if_pos hin]
      obtain ⟨v0, hv0⟩ := get_of_inRange hp.label_wf (x := x) (y := y) (m := 0) (s := 0)
        ⟨by omega, by omega, by omega, hp.label_sample⟩
      have hlow : lowest < v0 := hp.values v0 (List.mem_of_getElem? hv0)
      obtain ⟨m1, best, m2, m3⟩ := k2 ⟨0, v0, by omega, by rw [hget 0 (by omega)]; exact hv0, hlow⟩
      obtain ⟨n1, b2, n2, n3⟩ := hcls x y hin.1 hin.2
      obtain ⟨k', cw', b', i1, i2, i3, i4, i5⟩ := ho.inside x y hin.1 hin.2
      rw [hget k (by omega)] at m2
      have uniq : ∀ a va b vb, a < label.maps → b < label.maps → label.get x y a 0 = some va →
          label.get x y b 0 = some vb →
          (∀ c v, c < label.maps → label.get x y c 0 = some v → v ≤ va ∧ (c < a → v < va)) →
          (∀ c v, c < label.maps → label.get x y c 0 = some v → v ≤ vb ∧ (c < b → v < vb)) →
          a = b := by
        intro a va b vb ha hb hva hvb h1 h2
        rcases Nat.lt_trichotomy a b with h | h | h
        · exact absurd ((h2 a va ha hva).2 h) (not_lt.2 (h1 b vb hb hvb).1)
        · exact h
        · exact absurd ((h1 b vb hb hvb).2 h) (not_lt.2 (h2 a va ha hva).1)
      have ek : k = cls x y := uniq k best (cls x y) b2 (by omega) n1 m2 n2
        (fun c v hc hv => m3 c v (by omega) (by rw [hget c hc]; exact hv)) n3
      have ek' : k' = cls x y := uniq k' b' (cls x y) b2 i1 n1 i3 n2 i4 n3
      have hqk := hq (cls x y) (by omega)
      rw [ek', hqk] at i2
      obtain rfl := Option.some.inj i2
      refine ⟨k, _, k1, hkm, i5, ?_⟩
      rw [if_pos hin, ek]
    · refine ⟨k, 0, k1, hkm, ho.padding x y ⟨by omega, by omega, by omega, by omega⟩ hin, ?_⟩
      rw [if_neg hin, share_zero]
  have hrow : ∀ y s g, y < ds.maxHeight → Rep classes s g →
      ∃ s', forLoop ds.maxWidth (fun x => countPixel lowest ds.classWeights o.label o.error y x) s =
        some s' ∧ Rep classes s' (g + ∑ x ∈ Finset.range ds.maxWidth,
          if x < image.width ∧ y < image.height then
            share (cls x y) (ef x y image.width image.height * q (cls x y)) (q (cls x y)) else 0) := by
    intro y s g hy hs
    refine forLoop_acc (Rep := Rep classes) (fun x s g hx hs => ?_) hs
    obtain ⟨k, w, k1, k2, k3, k4⟩ := hpix y x hy hx
    rw [← k4]
    exact countPixel_rep k1 k3 (by omega) (hq k k2) hs
  obtain ⟨c', h1, h2⟩ := forLoop_acc (Rep := Rep classes) (n := ds.maxHeight) (fun y s g hy hs => hrow y s g hy hs) hc
  refine ⟨c', h1, ?_⟩
  have e : (∑ y ∈ Finset.range ds.maxHeight, ∑ x ∈ Finset.range ds.maxWidth,
      if x < image.width ∧ y < image.height then
        share (cls x y) (ef x y image.width image.height * q (cls x y)) (q (cls x y)) else 0) =
      ∑ y ∈ Finset.range image.height, ∑ x ∈ Finset.range image.width,
        share (cls x y) (ef x y image.width image.height * q (cls x y)) (q (cls x y)) := by
    rw [sum_tail p2]
    · apply Finset.sum_congr rfl
      intro y hy
      have hy' := Finset.mem_range.1 hy
      rw [sum_tail p1]
      · apply Finset.sum_congr rfl
        intro x hx
        rw [if_pos ⟨Finset.mem_range.1 hx, hy'⟩]
      · intro x hx _
        rw [if_neg (by omega)]
    · intro y hy _
      apply Finset.sum_eq_zero
      intro x _
      rw [if_neg (by omega)]
  rw [← e]
  exact h2

end
end CN24.ClassStats
