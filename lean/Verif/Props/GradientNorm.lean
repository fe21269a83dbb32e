import Verif.Props.GradientLayers
import Verif.Props.Lrn
import Mathlib.Analysis.Calculus.Deriv.Pi
import Mathlib.Analysis.Calculus.FDeriv.Pi
import Mathlib.Analysis.Calculus.FDeriv.Comp

/-
C65, local response normalisation: layers whose backward pass leaves the partial derivatives and whose forward
pass is differentiable back-propagate exactly.
-/

namespace CN24.Net
open CN24 CN24.Tensor CN24.Props Finset

/-- A buffer with the given beginning. -/
noncomputable def extend {n : Nat} (z : Fin n → ℝ) : Vec := fun i => if h : i < n then z ⟨i, h⟩ else 0

/-- The beginning of a buffer. -/
def front (n : Nat) (v : Vec) : Fin n → ℝ := fun i => v i

theorem extend_front (n : Nat) (v : Vec) : ∀ i < n, extend (front n v) i = v i := by
  intro i hi
  unfold extend front
  rw [dif_pos hi]

theorem tensorOf_front (sh : Shape) (v : Vec) : tensorOf sh (extend (front sh.elements v)) = tensorOf sh v :=
  tensorOf_congr sh (extend_front _ v)

/-- One entry of a buffer changed. -/
noncomputable def bumped (v : Vec) (i : Nat) (t : ℝ) : Vec := fun k => if k = i then v k + t else v k

theorem exact_partials {inp out : Shape} {fwd : Tensor ℝ → Option (Tensor ℝ)}
    {back : Bool → Tensor ℝ → Tensor ℝ → Tensor ℝ → Option (Tensor ℝ)} (x : Nat → Vec)
    (hdiff : ∀ o < out.elements, DifferentiableAt ℝ
      (fun z : Fin inp.elements → ℝ => vecOfOption (fwd (tensorOf inp (extend z))) o) (front inp.elements (x 0)))
    (hback : ∀ (e : Bool) (y d : Vec), ∃ w, back e (tensorOf inp (x 0)) (tensorOf out y) (tensorOf out d) = some w ∧
      ∀ i < inp.elements, HasDerivAt
        (fun t => pair out.elements d (vecOfOption (fwd (tensorOf inp (bumped (x 0) i t))))) (vecOf w i) 0)
    (pr : Bool) (p : Vec) :
    ExactAt (unarySem inp out fwd back) 0 [(inp.elements, pr)] 1 (fun _ => out.elements) p x := by
  intro P P' X X' _ hX _ hX' hstop
  have hX0 := hX' 0 inp.elements pr rfl
  have hcurve : HasDerivAt (fun t => front inp.elements (X t 0)) (front inp.elements (X' 0)) 0 :=
    hasDerivAt_pi.2 fun i => hX0 i i.2
  have hstart : front inp.elements (X 0 0) = front inp.elements (x 0) := by rw [hX]
  have hder : ∀ o < out.elements, HasDerivAt (fun t => vecOfOption (fwd (tensorOf inp (X t 0))) o)
      (fderiv ℝ (fun z : Fin inp.elements → ℝ => vecOfOption (fwd (tensorOf inp (extend z))) o)
        (front inp.elements (x 0)) (front inp.elements (X' 0))) 0 := by
    intro o ho
    have h1 := (hdiff o ho).hasFDerivAt
    rw [← hstart] at h1
    have h2 := h1.comp_hasDerivAt (0 : ℝ) hcurve
    rw [hstart] at h2
    refine h2.congr_of_eventuallyEq (Filter.Eventually.of_forall fun t => ?_)
    show _ = vecOfOption (fwd (tensorOf inp (extend (front inp.elements (X t 0))))) o
    rw [tensorOf_front]
  let Y' : Nat → Vec := fun _ o => fderiv ℝ
    (fun z : Fin inp.elements → ℝ => vecOfOption (fwd (tensorOf inp (extend z))) o)
    (front inp.elements (x 0)) (front inp.elements (X' 0))
  refine ⟨Y', 0, ?_, hasDerivAt_const _ _, ?_⟩
  · intro b hb o ho
    exact hder o ho
  · intro d
    obtain ⟨w, h1, h3⟩ := hback pr ((unarySem inp out fwd back).forward p x 0) (d 0)
    refine ⟨fun _ => vecOf w, ?_, ?_⟩
    · intro j k hj
      match j with
      | 0 =>
        simp only [List.getElem?_cons_zero, Option.some.injEq, Prod.mk.injEq] at hj
        obtain ⟨-, rfl⟩ := hj
        show (back true _ _ _).map vecOf = _
        rw [h1]
        rfl
      | j + 1 => simp at hj
    · rw [sum_inputs _ _ X' hstop]
      show 0 + ∑ b ∈ range 1, pair out.elements (d b) (Y' b) =
        ∑ j ∈ range 1, pair ([(inp.elements, pr)].getD j (0, false)).1 (vecOf w) (X' j) + pair 0 _ _
      rw [Finset.sum_range_one, Finset.sum_range_one]
      show 0 + pair out.elements (d 0) (Y' 0) = pair inp.elements (vecOf w) (X' 0) + pair 0 _ _
      have z : ∀ a b : Vec, pair 0 a b = 0 := fun a b => by simp [pair]
      rw [z, zero_add, add_zero]
      -- the weighted sum of the outputs
      have hPhi : HasFDerivAt (fun z : Fin inp.elements → ℝ =>
          pair out.elements (d 0) (vecOfOption (fwd (tensorOf inp (extend z)))))
          (∑ o ∈ range out.elements, d 0 o • fderiv ℝ
            (fun z : Fin inp.elements → ℝ => vecOfOption (fwd (tensorOf inp (extend z))) o)
            (front inp.elements (x 0))) (front inp.elements (x 0)) := by
        unfold pair
        exact HasFDerivAt.fun_sum fun o ho => (hdiff o (Finset.mem_range.1 ho)).hasFDerivAt.const_mul (d 0 o)
      generalize hL : (∑ o ∈ range out.elements, d 0 o • fderiv ℝ
            (fun z : Fin inp.elements → ℝ => vecOfOption (fwd (tensorOf inp (extend z))) o)
            (front inp.elements (x 0))) = L at hPhi
      have hY : pair out.elements (d 0) (Y' 0) = L (front inp.elements (X' 0)) := by
        rw [← hL]
        simp only [ContinuousLinearMap.sum_apply, ContinuousLinearMap.smul_apply, smul_eq_mul]
        rfl
      have hpart : ∀ i : Fin inp.elements, L (Pi.single i 1) = vecOf w i := by
        intro i
        have hline : HasDerivAt (fun t => front inp.elements (bumped (x 0) i t)) (Pi.single i (1 : ℝ)) 0 := by
          refine hasDerivAt_pi.2 fun k => ?_
          unfold front bumped
          by_cases hk : k = i
          · subst hk
            simp only [if_true, Pi.single_eq_same]
            exact (hasDerivAt_id (0 : ℝ)).const_add _
          · have hk' : ¬ (k : Nat) = i := fun h => hk (Fin.ext h)
            simp only [if_neg hk', Pi.single_eq_of_ne hk]
            exact hasDerivAt_const _ _
        have hst : front inp.elements (bumped (x 0) i 0) = front inp.elements (x 0) := by
          funext k
          unfold front bumped
          simp
        rw [← hst] at hPhi
        have h4 := hPhi.comp_hasDerivAt (0 : ℝ) hline
        have h5 := (h3 i i.2).congr_of_eventuallyEq (f₁ := (fun z : Fin inp.elements → ℝ =>
          pair out.elements (d 0) (vecOfOption (fwd (tensorOf inp (extend z))))) ∘
            fun t => front inp.elements (bumped (x 0) i t)) (Filter.Eventually.of_forall fun t => by
              show pair out.elements (d 0) (vecOfOption (fwd (tensorOf inp
                (extend (front inp.elements (bumped (x 0) i t)))))) = _
              rw [tensorOf_front])
        exact h4.unique h5
      rw [hY]
      have hsum : front inp.elements (X' 0) = ∑ i : Fin inp.elements, X' 0 i • (Pi.single i (1 : ℝ) : Fin inp.elements → ℝ) := by
        funext k
        simp only [Finset.sum_apply, Pi.smul_apply, Pi.single_apply, smul_eq_mul, mul_ite, mul_one, mul_zero,
          Finset.sum_ite_eq, Finset.mem_univ, if_true]
        rfl
      rw [hsum, map_sum]
      simp only [map_smul, hpart, smul_eq_mul]
      unfold pair
      rw [Finset.sum_range fun i => vecOf w i * X' 0 i]
      exact Finset.sum_congr rfl fun i _ => mul_comm _ _

theorem lrnTensors (sh : Shape) (v : Vec) : LrnTensors (tensorOf sh v) (buffer sh) (buffer sh) :=
  ⟨tensorOf_wf _ _, tensorOf_wf _ _, tensorOf_wf _ _, tensorOf_sh _ _ _, tensorOf_sh _ _ _⟩

theorem normalised_congr (c : Lrn.Config ℝ) (w h maps : Nat) (f g : Nat × Nat × Nat → ℝ) (p : Nat × Nat × Nat)
    (hp : f p = g p) (hfg : ∀ q ∈ neighbourhood c w h maps p, f q = g q) :
    normalised c w h maps f p = normalised c w h maps g p := by
  unfold normalised
  rw [hp, Finset.sum_congr rfl fun q hq => by rw [hfg q hq]]

theorem neighbourhood_range {c : Lrn.Config ℝ} {w h maps : Nat} {p q : Nat × Nat × Nat}
    (hq : q ∈ neighbourhood c w h maps p) : q.1 < w ∧ q.2.1 < h ∧ q.2.2 < maps := by
  unfold neighbourhood at hq
  simp only [Finset.mem_filter, Finset.mem_product, Finset.mem_range] at hq
  exact hq.1

theorem lrn_entry (c : Lrn.Config ℝ) (sh : Shape) (hsize : 0 < c.size) (hsq : sh.width = sh.height) (v : Vec)
    {x y m s : Nat} (hin : (tensorOf sh 0).InRange x y m s) :
    vecOfOption ((Lrn.forward (fun a b : ℝ => a ^ b) c (tensorOf sh v) (buffer sh, buffer sh)).map (·.2))
      ((tensorOf sh 0).offset x y m s) =
    normalised c sh.width sh.height sh.maps (sampleOf (tensorOf sh v) s) (x, y, m) := by
  obtain ⟨a, b, e, hs, hg⟩ := C46_square_partial c (tensorOf sh v) (buffer sh) (buffer sh) (lrnTensors sh v) hsize hsq
  rw [e]
  show vecOf b _ = _
  have := val_of_get (hg x y m s hin)
  rw [show normalised c sh.width sh.height sh.maps (sampleOf (tensorOf sh v) s) (x, y, m) = b.val x y m s from this.symm]
  unfold vecOf Tensor.val
  rw [hs.offset]
  rfl

theorem normalised_differentiable (c : Lrn.Config ℝ) (ha : 0 ≤ c.alpha) (w h maps : Nat) {n : Nat}
    (F : (Fin n → ℝ) → Nat × Nat × Nat → ℝ) (z0 : Fin n → ℝ) (p : Nat × Nat × Nat)
    (hp : DifferentiableAt ℝ (fun z => F z p) z0)
    (hF : ∀ q ∈ neighbourhood c w h maps p, DifferentiableAt ℝ (fun z => F z q) z0) :
    DifferentiableAt ℝ (fun z => normalised c w h maps (F z) p) z0 := by
  unfold normalised
  have hpos : 0 < 1 + c.alpha / ((neighbourhood c w h maps p).card : ℝ) *
      ∑ q ∈ neighbourhood c w h maps p, F z0 q ^ 2 := by
    have : 0 ≤ ∑ q ∈ neighbourhood c w h maps p, F z0 q ^ 2 := Finset.sum_nonneg fun q _ => sq_nonneg _
    positivity
  have h1 : DifferentiableAt ℝ (fun z => ∑ q ∈ neighbourhood c w h maps p, F z q ^ 2) z0 :=
    DifferentiableAt.fun_sum fun q hq => (hF q hq).pow 2
  have h2 : DifferentiableAt ℝ (fun z => 1 + c.alpha / ((neighbourhood c w h maps p).card : ℝ) *
      ∑ q ∈ neighbourhood c w h maps p, F z q ^ 2) z0 := (h1.const_mul _).const_add _
  have h3 := h2.rpow_const (p := c.beta) (Or.inl (ne_of_gt hpos))
  simp only [div_eq_mul_inv _ (_ ^ c.beta)]
  exact hp.mul (h3.inv (ne_of_gt (Real.rpow_pos_of_pos hpos _)))

/-- C65, local response normalisation back-propagates exactly on square images, see C46 and C64 for others. -/
theorem C65_lrn (c : Lrn.Config ℝ) (sh : Shape) (hsize : 0 < c.size) (ha : 0 ≤ c.alpha) (hsq : sh.width = sh.height)
    (pr : Bool) (p : Vec) (x : Nat → Vec) :
    ExactAt (lrnSem c sh) 0 [(sh.elements, pr)] 1 (fun _ => sh.elements) p x := by
  refine exact_partials (inp := sh) (out := sh) x ?_ ?_ pr p
  · intro o ho
    rw [← elements_shape sh 0] at ho
    obtain ⟨xx, yy, m, s, hin, rfl⟩ := offset_surj _ ho
    simp only [lrn_entry c sh hsize hsq _ hin]
    have hcoord : ∀ q : Nat × Nat × Nat, q.1 < sh.width → q.2.1 < sh.height → q.2.2 < sh.maps →
        DifferentiableAt ℝ (fun z : Fin sh.elements → ℝ => sampleOf (tensorOf sh (extend z)) s q)
          (front sh.elements (x 0)) := by
      intro q h1 h2 h3
      have hq : (tensorOf sh 0).InRange q.1 q.2.1 q.2.2 s := ⟨h1, h2, h3, hin.2.2.2⟩
      have hlt := offset_lt _ hq
      rw [elements_shape] at hlt
      have he : (fun z : Fin sh.elements → ℝ => sampleOf (tensorOf sh (extend z)) s q) =
          fun z => z ⟨_, hlt⟩ := by
        funext z
        unfold sampleOf
        rw [tensorOf_val sh (extend z) hq]
        unfold extend
        rw [dif_pos hlt]
      rw [he]
      exact differentiableAt_apply _ _
    refine normalised_differentiable c ha _ _ _ (fun z => sampleOf (tensorOf sh (extend z)) s) _ _
      (hcoord _ hin.1 hin.2.1 hin.2.2.1) ?_
    intro q hq
    obtain ⟨h1, h2, h3⟩ := neighbourhood_range hq
    exact hcoord q h1 h2 h3
  · intro e y d
    obtain ⟨a, b, e1, din, e2, hs, hg⟩ := C64_square_partial c (tensorOf sh (x 0)) (buffer sh) (buffer sh)
      (tensorOf sh d) (buffer sh) (lrnTensors sh (x 0)) (tensorOf_wf _ _) (tensorOf_wf _ _) (tensorOf_sh _ _ _)
      (tensorOf_sh _ _ _) hsize ha hsq
    refine ⟨din, ?_, ?_⟩
    · show (Lrn.forward _ _ _ _).bind _ = _
      rw [e1]
      exact e2
    · intro i hi
      rw [← elements_shape sh 0] at hi
      obtain ⟨x0, y0, m0, s0, hin0, rfl⟩ := offset_surj _ hi
      obtain ⟨g, hg1, hg2⟩ := hg x0 y0 m0 s0 hin0
      have hv : vecOf din ((tensorOf sh 0).offset x0 y0 m0 s0) = g := by
        rw [← val_of_get hg1]
        unfold vecOf Tensor.val
        rw [hs.offset]
        rfl
      rw [hv]
      refine hg2.congr_of_eventuallyEq (Filter.Eventually.of_forall fun t => ?_)
      obtain ⟨a', b', e1', hs', hg'⟩ := C46_square_partial c
        (tensorOf sh (bumped (x 0) ((tensorOf sh 0).offset x0 y0 m0 s0) t)) (buffer sh) (buffer sh)
        (lrnTensors sh _) hsize hsq
      beta_reduce
      rw [e1']
      show pair sh.elements d (vecOf b') = _
      rw [← dot_tensorOf sh b' d hs']
      unfold dot weightedOutput
      rw [← hs'.1, ← hs'.2.1, ← hs'.2.2.1, ← hs'.2.2.2]
      refine Finset.sum_congr rfl fun s hs => Finset.sum_congr rfl fun m hm => Finset.sum_congr rfl fun yy hy =>
        Finset.sum_congr rfl fun xx hx => ?_
      have hin : (tensorOf sh 0).InRange xx yy m s := ⟨Finset.mem_range.1 hx, Finset.mem_range.1 hy,
        Finset.mem_range.1 hm, Finset.mem_range.1 hs⟩
      rw [val_of_get (hg' xx yy m s hin), mul_comm]
      congr 1
      have hq : ∀ q : Nat × Nat × Nat, q.1 < sh.width → q.2.1 < sh.height → q.2.2 < sh.maps →
          sampleOf (tensorOf sh (bumped (x 0) ((tensorOf sh 0).offset x0 y0 m0 s0) t)) s q =
          nudged (tensorOf sh (x 0)) (x0, y0, m0) s0 t s q := by
        intro q h1 h2 h3
        have hq : (tensorOf sh 0).InRange q.1 q.2.1 q.2.2 s := ⟨h1, h2, h3, hin.2.2.2⟩
        unfold nudged sampleOf
        rw [tensorOf_val sh (bumped (x 0) ((tensorOf sh 0).offset x0 y0 m0 s0) t) hq, tensorOf_val sh (x 0) hq]
        unfold bumped
        by_cases he : s = s0 ∧ q = (x0, y0, m0)
        · rw [if_pos he]
          obtain ⟨rfl, rfl⟩ := he
          rw [if_pos rfl]
        · rw [if_neg he, if_neg, add_zero]
          intro ho
          obtain ⟨o1, o2, o3, o4⟩ := offset_inj _ hq hin0 ho
          refine he ⟨o4, ?_⟩
          ext1
          · exact o1
          · ext1
            · exact o2
            · exact o3
      refine normalised_congr c _ _ _ _ _ _ (hq _ hin.1 hin.2.1 hin.2.2.1) ?_
      intro q hq'
      obtain ⟨h1, h2, h3⟩ := neighbourhood_range hq'
      exact hq q h1 h2 h3

/-- Non-vacuity: two samples of two maps of 3 x 3 pixels, normalised across the maps. -/
example : ExactAt (lrnSem ⟨3, 1, 1 / 2, .acrossChannels⟩ ⟨2, 3, 3, 2⟩) 0 [((⟨2, 3, 3, 2⟩ : Shape).elements, true)] 1
    (fun _ => (⟨2, 3, 3, 2⟩ : Shape).elements) 0 (fun _ i => (i : ℝ)) :=
  C65_lrn _ _ (by norm_num) (by norm_num) rfl _ _ _

end CN24.Net
