import Verif.Proof.GradientLayers
import Verif.Props.Gradient
import Verif.Props.Convolution
import Verif.Props.Activations
import Verif.Props.Layers
import Verif.Props.Trainer
import Verif.Props.Pooling

/-
C65, the layers: which of the modelled layers back-propagate exactly, so that the theorem about whole networks
applies to networks built from them.
-/

namespace CN24.Net
open CN24 CN24.Tensor CN24.Props Finset

/-! ### Activation layers -/

theorem exact_activation (sh : Shape) (fwd : Tensor ℝ → Tensor ℝ → Option (Tensor ℝ))
    (back : Tensor ℝ → Tensor ℝ → Tensor ℝ → Tensor ℝ → Option (Tensor ℝ)) (F : ℝ → ℝ) (Smooth : ℝ → Prop)
    (h : Differentiates F Smooth fwd back) (pr : Bool) (p : Vec) (x : Nat → Vec)
    (hx : ∀ i < sh.elements, Smooth (x 0 i)) :
    ExactAt (unarySem sh sh (fun t => fwd t (buffer sh)) fun _ t y d => back t y d (buffer sh)) 0
      [(sh.elements, pr)] 1 (fun _ => sh.elements) p x := by
  have hten : ∀ v d : Vec, ActivationTensors (tensorOf sh v) (buffer sh) (tensorOf sh d) (buffer sh) := by
    intro v d
    refine ⟨tensorOf_wf _ _, tensorOf_wf _ _, tensorOf_wf _ _, tensorOf_wf _ _, ?_, tensorOf_sh _ _ _,
      tensorOf_sh _ _ _⟩
    simp [Activations.connect, buffer, tensorOf, Tensor.shape]
  have hfwd : ∀ v : Vec, ∃ u, fwd (tensorOf sh v) (buffer sh) = some u ∧ Sh (tensorOf sh 0) u ∧
      ∀ i < sh.elements, vecOf u i = F (v i) := by
    intro v
    obtain ⟨u, hu, su, -, din, -, -, hval⟩ := h _ _ _ _ (hten v 0)
    refine ⟨u, hu, su, vec_ext su (fun i => F (v i)) ?_⟩
    intro a b m s hin
    obtain ⟨w, d, h1, -, h3, -⟩ := hval a b m s hin
    have h4 : w = v ((tensorOf sh 0).offset a b m s) := by
      rw [← tensorOf_val sh v hin, val_of_get h1]
    rw [val_of_get h3, h4]
  have hsm : ∀ i, ∃ F', i < sh.elements → HasDerivAt F F' (x 0 i) := by
    intro i
    by_cases hi : i < sh.elements
    · rw [← elements_shape sh (x 0)] at hi
      obtain ⟨a, b, m, s, hin, rfl⟩ := offset_surj _ hi
      obtain ⟨u, hu, su, -, din, -, -, hval⟩ := h _ _ _ _ (hten (x 0) 0)
      obtain ⟨w, d, h1, -, -, h4⟩ := hval a b m s hin
      have h5 : w = x 0 ((tensorOf sh (x 0)).offset a b m s) := by
        rw [← val_of_get h1, tensorOf_val sh (x 0) hin]
        rfl
      obtain ⟨F', h6, -⟩ := h4 (by rw [h5]; exact hx _ (by rw [← elements_shape sh (x 0)]; exact hi))
      exact ⟨F', fun _ => h5 ▸ h6⟩
    · exact ⟨0, fun h => absurd h hi⟩
  choose F' hF' using hsm
  refine exact_elementwise _ sh.elements pr _ rfl F F' p x (fun _ _ => rfl) ?_ (fun i hi => hF' i hi) ?_
  · intro q z i hi
    obtain ⟨u, hu, -, hv⟩ := hfwd (z 0)
    show vecOfOption (fwd (tensorOf sh (z 0)) (buffer sh)) i = _
    rw [hu]
    exact hv i hi
  · intro d
    obtain ⟨u, hu, su, wu, din, hb, sd, hval⟩ := h _ _ _ _ (hten (x 0) (d 0))
    refine ⟨vecOf din, ?_, vec_ext (sh := sh) sd (fun i => d 0 i * F' i) ?_⟩
    · show (back (tensorOf sh (x 0)) (tensorOf sh (vecOfOption (fwd (tensorOf sh (x 0)) (buffer sh))))
        (tensorOf sh (d 0)) (buffer sh)).map vecOf = _
      rw [hu]
      show (back (tensorOf sh (x 0)) (tensorOf sh (vecOf u)) (tensorOf sh (d 0)) (buffer sh)).map vecOf = _
      rw [tensorOf_vecOf su wu, hb]
      rfl
    · intro a b m s hin
      obtain ⟨w, e, h1, h2, -, h4⟩ := hval a b m s hin
      have h5 : w = x 0 ((tensorOf sh 0).offset a b m s) := by
        rw [← tensorOf_val sh (x 0) hin, val_of_get h1]
      have h6 : e = d 0 ((tensorOf sh 0).offset a b m s) := by
        rw [← tensorOf_val sh (d 0) hin, val_of_get h2]
      have hlt := offset_lt _ hin
      rw [elements_shape] at hlt
      obtain ⟨G, h7, h8⟩ := h4 (by rw [h5]; exact hx _ hlt)
      rw [val_of_get h8, h6]
      have := (h5 ▸ h7).unique (hF' _ hlt)
      rw [this]

/-- C65, sigmoid layers back-propagate exactly at all inputs. -/
theorem C65_sigmoid (sh : Shape) (pr : Bool) (p : Vec) (x : Nat → Vec) :
    ExactAt (sigmoidSem sh) 0 [(sh.elements, pr)] 1 (fun _ => sh.elements) p x :=
  exact_activation sh _ _ _ _ C49_sigmoid pr p x fun _ _ => trivial

/-- C65, tanh layers back-propagate exactly at all inputs. -/
theorem C65_tanh (sh : Shape) (pr : Bool) (p : Vec) (x : Nat → Vec) :
    ExactAt (tanhSem sh) 0 [(sh.elements, pr)] 1 (fun _ => sh.elements) p x :=
  exact_activation sh _ _ _ _ C49_tanh pr p x fun _ _ => trivial

/-- C65, rectifier layers back-propagate exactly where no input is zero. -/
theorem C65_relu (sh : Shape) (pr : Bool) (p : Vec) (x : Nat → Vec) (hx : ∀ i < sh.elements, x 0 i ≠ 0) :
    ExactAt (reluSem sh) 0 [(sh.elements, pr)] 1 (fun _ => sh.elements) p x :=
  exact_activation sh _ _ _ _ C49_relu pr p x hx

/-! ### Layers that move pixels -/

theorem exact_unary {inp out : Shape} {fwd : Tensor ℝ → Option (Tensor ℝ)}
    {back : Bool → Tensor ℝ → Tensor ℝ → Tensor ℝ → Option (Tensor ℝ)} (B : Vec → Option (Tensor ℝ)) (k : Vec → ℝ)
    (hback : ∀ x y d, back true x y (tensorOf out d) = B d)
    (h : ∀ v d : Vec, ∃ u w, fwd (tensorOf inp v) = some u ∧ Sh (tensorOf out 0) u ∧ B d = some w ∧
      Sh (tensorOf inp 0) w ∧ dot u (tensorOf out d) = k d + dot (tensorOf inp v) w)
    (pr : Bool) (p : Vec) (x : Nat → Vec) :
    ExactAt (unarySem inp out fwd back) 0 [(inp.elements, pr)] 1 (fun _ => out.elements) p x := by
  refine exact_affine _ _ _ (fun _ d => vecOfOption (B d)) k p x (fun _ _ => rfl) ?_ ?_
  · intro q z d
    obtain ⟨u, w, h1, h2, h3, h4, h5⟩ := h (z 0) d
    show pair out.elements d (vecOfOption (fwd (tensorOf inp (z 0)))) = _
    rw [h1]
    simp only [List.length_singleton, Finset.range_one, Finset.sum_singleton, List.getD_cons_zero]
    show pair out.elements d (vecOf u) = _
    rw [← dot_tensorOf out u d h2, h5, h3, dot_tensorOf' inp w (z 0) h4]
    rfl
  · intro d j n hj
    cases j with
    | succ j => simp at hj
    | zero =>
      cases hj
      show (back true _ _ (tensorOf out (d 0))).map vecOf = _
      rw [hback]
      obtain ⟨u, w, -, -, h3, -⟩ := h 0 (d 0)
      rw [h3]
      rfl

/-- C65, resize layers back-propagate exactly. -/
theorem C65_resize (bx by' : Nat) (sh : Shape) (pr : Bool) (p : Vec) (x : Nat → Vec) :
    ExactAt (resizeSem bx by' sh) 0 [(sh.elements, pr)] 1 (fun _ => (Layers.resizeCreate bx by' sh).elements) p x := by
  refine exact_unary (fun d => Layers.resizeBackward bx by' true (tensorOf _ d) (buffer sh)) 0 (fun _ _ _ => rfl)
    ?_ pr p x
  intro v d
  have hcr : (buffer (Layers.resizeCreate bx by' sh)).shape = Layers.resizeCreate bx by' (tensorOf sh v).shape := rfl
  obtain ⟨u, w, h1, h2, h3⟩ := C42_adjoint bx by' (tensorOf sh v) (buffer (Layers.resizeCreate bx by' sh))
    (tensorOf _ d) (buffer sh) (tensorOf_wf _ _) (tensorOf_wf _ _) (tensorOf_wf _ _) (tensorOf_wf _ _) hcr
    (tensorOf_sh _ _ _) (tensorOf_sh _ _ _)
  obtain ⟨-, u', g1, g2, -⟩ := C42_forward bx by' (tensorOf sh v) (buffer (Layers.resizeCreate bx by' sh))
    (tensorOf_wf _ _) (tensorOf_wf _ _) hcr
  obtain ⟨⟨w', g3, g4, -⟩, -⟩ := C42_backward bx by' (tensorOf (Layers.resizeCreate bx by' sh) d) (buffer sh)
    (tensorOf_wf _ _) (tensorOf_wf _ _) rfl
  obtain rfl := Option.some.inj (g1.symm.trans h1)
  obtain rfl := Option.some.inj (g3.symm.trans h2)
  exact ⟨u', w', g1, g2, g3, g4, by rw [h3]; simp⟩

/-- C65, up-scaling layers back-propagate exactly. -/
theorem C65_upscale (rw rh : Nat) (sh : Shape) (pr : Bool) (p : Vec) (x : Nat → Vec) :
    ExactAt (upscaleSem rw rh sh) 0 [(sh.elements, pr)] 1
      (fun _ => (⟨sh.samples, sh.width * rw, sh.height * rh, sh.maps⟩ : Shape).elements) p x := by
  refine exact_unary (fun d => Layers.upscaleBackward rw rh (tensorOf _ d) (buffer sh)) 0 (fun _ _ _ => rfl)
    ?_ pr p x
  intro v d
  obtain ⟨u, w, h1, h2, -, -, h3⟩ := C59_upscale rw rh (tensorOf sh v)
    (buffer ⟨sh.samples, sh.width * rw, sh.height * rh, sh.maps⟩)
    (tensorOf ⟨sh.samples, sh.width * rw, sh.height * rh, sh.maps⟩ d) (buffer sh) (tensorOf_wf _ _)
    (tensorOf_wf _ _) (tensorOf_wf _ _) (tensorOf_wf _ _) rfl rfl rfl rfl (tensorOf_sh _ _ _) (tensorOf_sh _ _ _)
  obtain ⟨u', g1, g2, -⟩ := C38_up (tensorOf sh v) (buffer ⟨sh.samples, sh.width * rw, sh.height * rh, sh.maps⟩)
    rw rh 1 (tensorOf_wf _ _) (tensorOf_wf _ _) (Nat.mul_comm _ _) (Nat.mul_comm _ _) rfl rfl
  obtain ⟨w', g3, g4, -⟩ := C38_down (tensorOf ⟨sh.samples, sh.width * rw, sh.height * rh, sh.maps⟩ d) (buffer sh)
    rw rh 1 (tensorOf_wf _ _) (tensorOf_wf _ _) (Nat.mul_comm _ _) (Nat.mul_comm _ _) rfl rfl
  obtain rfl := Option.some.inj (g1.symm.trans h1)
  obtain rfl := Option.some.inj (g3.symm.trans h2)
  exact ⟨u', w', g1, g2, g3, g4, by rw [h3]; simp⟩

/-- C65, spatial prior layers back-propagate exactly. -/
theorem C65_spatial_prior (sh : Shape) (pr : Bool) (p : Vec) (x : Nat → Vec) :
    ExactAt (spatialSem sh) 0 [(sh.elements, pr)] 1
      (fun _ => (⟨sh.samples, sh.width, sh.height, sh.maps + 2⟩ : Shape).elements) p x := by
  refine exact_unary (fun d => Layers.spatialBackward (tensorOf _ d) (buffer sh))
    (fun d => ∑ s ∈ range sh.samples, (
      (∑ y ∈ range sh.height, ∑ x ∈ range sh.width, (x : ℝ) / sh.width *
        (tensorOf ⟨sh.samples, sh.width, sh.height, sh.maps + 2⟩ d).val x y 0 s) +
      ∑ y ∈ range sh.height, ∑ x ∈ range sh.width, (y : ℝ) / sh.height *
        (tensorOf ⟨sh.samples, sh.width, sh.height, sh.maps + 2⟩ d).val x y 1 s)) (fun _ _ _ => rfl) ?_ pr p x
  intro v d
  obtain ⟨⟨u, h1, h2, h3, h4⟩, w, g1, g2, g3, g4⟩ := C58_spatial_prior (tensorOf sh v)
    (buffer ⟨sh.samples, sh.width, sh.height, sh.maps + 2⟩)
    (tensorOf ⟨sh.samples, sh.width, sh.height, sh.maps + 2⟩ d) (buffer sh) (tensorOf_wf _ _)
    (tensorOf_wf _ _) (tensorOf_wf _ _) (tensorOf_wf _ _) rfl rfl rfl rfl (tensorOf_sh _ _ _) (tensorOf_sh _ _ _)
  refine ⟨u, w, h1, h2, g1, g2, ?_⟩
  have e1 : u.samples = sh.samples := h2.1.symm
  have e2 : u.width = sh.width := h2.2.1.symm
  have e3 : u.height = sh.height := h2.2.2.1.symm
  have e4 : u.maps = sh.maps + 2 := h2.2.2.2.symm
  unfold dot
  simp only [e1, e2, e3, e4, tensorOf_samples, tensorOf_width, tensorOf_height, tensorOf_maps]
  rw [← Finset.sum_add_distrib]
  refine Finset.sum_congr rfl fun s hs => ?_
  have hs' := Finset.mem_range.1 hs
  rw [Finset.sum_range_succ', Finset.sum_range_succ']
  have t0 : ∑ y ∈ range sh.height, ∑ x ∈ range sh.width, u.val x y 0 s *
      (tensorOf ⟨sh.samples, sh.width, sh.height, sh.maps + 2⟩ d).val x y 0 s =
      ∑ y ∈ range sh.height, ∑ x ∈ range sh.width, (x : ℝ) / sh.width *
        (tensorOf ⟨sh.samples, sh.width, sh.height, sh.maps + 2⟩ d).val x y 0 s := by
    refine Finset.sum_congr rfl fun y hy => Finset.sum_congr rfl fun x hx => ?_
    rw [val_of_get (h4 x y s (Finset.mem_range.1 hx) (Finset.mem_range.1 hy) hs').1]
    rfl
  have t1 : ∑ y ∈ range sh.height, ∑ x ∈ range sh.width, u.val x y (0 + 1) s *
      (tensorOf ⟨sh.samples, sh.width, sh.height, sh.maps + 2⟩ d).val x y (0 + 1) s =
      ∑ y ∈ range sh.height, ∑ x ∈ range sh.width, (y : ℝ) / sh.height *
        (tensorOf ⟨sh.samples, sh.width, sh.height, sh.maps + 2⟩ d).val x y 1 s := by
    refine Finset.sum_congr rfl fun y hy => Finset.sum_congr rfl fun x hx => ?_
    rw [val_of_get (h4 x y s (Finset.mem_range.1 hx) (Finset.mem_range.1 hy) hs').2.1]
    rfl
  rw [t0, t1]
  have t2 : ∑ m ∈ range sh.maps, ∑ y ∈ range sh.height, ∑ x ∈ range sh.width, u.val x y (m + 1 + 1) s *
      (tensorOf ⟨sh.samples, sh.width, sh.height, sh.maps + 2⟩ d).val x y (m + 1 + 1) s =
      ∑ m ∈ range sh.maps, ∑ y ∈ range sh.height, ∑ x ∈ range sh.width,
        (tensorOf sh v).val x y m s * w.val x y m s := by
    refine Finset.sum_congr rfl fun m hm => Finset.sum_congr rfl fun y hy => Finset.sum_congr rfl fun x hx => ?_
    have hm' := Finset.mem_range.1 hm
    have hy' := Finset.mem_range.1 hy
    have hx' := Finset.mem_range.1 hx
    have hin : (tensorOf sh v).InRange x y m s := ⟨hx', hy', hm', hs'⟩
    have a1 := (h4 x y s hx' hy' hs').2.2 m hm'
    rw [get_eq_val (tensorOf_wf sh v) hin] at a1
    have a2 := g4 x y m s hin
    rw [get_eq_val (tensorOf_wf _ d) (show (tensorOf ⟨sh.samples, sh.width, sh.height, sh.maps + 2⟩ d).InRange
      x y (m + 2) s from ⟨hx', hy', Nat.add_lt_add_right hm' 2, hs'⟩)] at a2
    rw [val_of_get a1, val_of_get a2]
  rw [t2]
  ring

theorem exact_binary {a b out : Shape} {fwd : Tensor ℝ → Tensor ℝ → Option (Tensor ℝ)}
    {back : Tensor ℝ → Option (Tensor ℝ × Tensor ℝ)}
    (h : ∀ v w d : Vec, ∃ u p q, fwd (tensorOf a v) (tensorOf b w) = some u ∧ Sh (tensorOf out 0) u ∧
      back (tensorOf out d) = some (p, q) ∧ Sh (tensorOf a 0) p ∧ Sh (tensorOf b 0) q ∧
      dot u (tensorOf out d) = dot (tensorOf a v) p + dot (tensorOf b w) q)
    (pr pr' : Bool) (p : Vec) (x : Nat → Vec) :
    ExactAt (binarySem a b out fwd back) 0 [(a.elements, pr), (b.elements, pr')] 1 (fun _ => out.elements) p x := by
  refine exact_affine _ _ _ (fun j d => if j = 0 then vecOfOption ((back (tensorOf out d)).map (·.1))
    else vecOfOption ((back (tensorOf out d)).map (·.2))) 0 p x (fun _ _ => rfl) ?_ ?_
  · intro q z d
    obtain ⟨u, r, t, h1, h2, h3, h4, h5, h6⟩ := h (z 0) (z 1) d
    show pair out.elements d (vecOfOption (fwd (tensorOf a (z 0)) (tensorOf b (z 1)))) = _
    rw [h1]
    show pair out.elements d (vecOf u) = 0 + ∑ j ∈ range 2, _
    rw [Finset.sum_range_succ, Finset.sum_range_succ, Finset.sum_range_zero, ← dot_tensorOf out u d h2, h6]
    rw [h3, dot_tensorOf' a r (z 0) h4, dot_tensorOf' b t (z 1) h5]
    simp [vecOfOption]
  · intro d j n hj
    obtain ⟨u, r, t, -, -, h3, -⟩ := h 0 0 (d 0)
    match j with
    | 0 =>
      show (back (tensorOf out (d 0))).map (fun r => vecOf r.1) = _
      simp only [h3]
      rfl
    | 1 =>
      show (back (tensorOf out (d 0))).map (fun r => vecOf r.2) = _
      simp only [h3]
      rfl
    | j + 2 => simp at hj

/-- C65, sum layers back-propagate exactly. -/
theorem C65_sum (sh : Shape) (pr pr' : Bool) (p : Vec) (x : Nat → Vec) :
    ExactAt (sumSem sh) 0 [(sh.elements, pr), (sh.elements, pr')] 1 (fun _ => sh.elements) p x := by
  refine exact_binary ?_ pr pr' p x
  intro v w d
  obtain ⟨-, ⟨u, h1, h2, h3⟩, q, r, g1, g2, g3, g4⟩ := C41_sum_partial (tensorOf sh v) (tensorOf sh w) (buffer sh)
    (tensorOf sh d) (buffer sh) (buffer sh) (tensorOf_wf _ _) (tensorOf_wf _ _) (tensorOf_wf _ _) (tensorOf_wf _ _)
    (tensorOf_wf _ _) (tensorOf_wf _ _) (tensorOf_sh _ _ _)
    (by simp [Layers.sumCreate, Tensor.shape, tensorOf, buffer])
    (tensorOf_sh _ _ _) (tensorOf_sh _ _ _) (tensorOf_sh _ _ _)
  refine ⟨u, q, r, by rw [h1], h2, g1, g2, g3, ?_⟩
  have e1 : u.samples = sh.samples := h2.1.symm
  have e2 : u.width = sh.width := h2.2.1.symm
  have e3 : u.height = sh.height := h2.2.2.1.symm
  have e4 : u.maps = sh.maps := h2.2.2.2.symm
  unfold dot
  simp only [e1, e2, e3, e4, tensorOf_samples, tensorOf_width, tensorOf_height, tensorOf_maps]
  rw [← Finset.sum_add_distrib]
  refine Finset.sum_congr rfl fun s hs => ?_
  rw [← Finset.sum_add_distrib]
  refine Finset.sum_congr rfl fun m hm => ?_
  rw [← Finset.sum_add_distrib]
  refine Finset.sum_congr rfl fun y hy => ?_
  rw [← Finset.sum_add_distrib]
  refine Finset.sum_congr rfl fun x hx => ?_
  have hin : (tensorOf sh v).InRange x y m s := ⟨Finset.mem_range.1 hx, Finset.mem_range.1 hy,
    Finset.mem_range.1 hm, Finset.mem_range.1 hs⟩
  obtain ⟨k1, k2⟩ := g4 x y m s hin
  rw [get_eq_val (tensorOf_wf _ d) (show (tensorOf sh d).InRange x y m s from hin)] at k1 k2
  rw [h3 x y m s hin, val_of_get k1, val_of_get k2]
  ring

/-- C65, concatenation layers back-propagate exactly. -/
theorem C65_concat (samples width height maps maps' : Nat) (pr pr' : Bool) (p : Vec) (x : Nat → Vec) :
    ExactAt (concatSem samples width height maps maps') 0
      [((⟨samples, width, height, maps⟩ : Shape).elements, pr), ((⟨samples, width, height, maps'⟩ : Shape).elements, pr')]
      1 (fun _ => (⟨samples, width, height, maps + maps'⟩ : Shape).elements) p x := by
  refine exact_binary ?_ pr pr' p x
  intro v w d
  obtain ⟨-, u, h1, h2, h3, h4, h5⟩ := C41_concat_forward_partial (tensorOf ⟨samples, width, height, maps⟩ v)
    (tensorOf ⟨samples, width, height, maps'⟩ w) (buffer ⟨samples, width, height, maps + maps'⟩)
    (tensorOf_wf _ _) (tensorOf_wf _ _) (tensorOf_wf _ _) rfl rfl rfl
    (by simp [Layers.concatCreate, Tensor.shape, tensorOf, buffer])
  obtain ⟨q, r, g1, g2, g3, -, -, g6, g7⟩ := C41_concat_backward_partial
    (tensorOf ⟨samples, width, height, maps + maps'⟩ d) (buffer ⟨samples, width, height, maps⟩)
    (buffer ⟨samples, width, height, maps'⟩)
    (tensorOf_wf _ _) (tensorOf_wf _ _) (tensorOf_wf _ _) rfl rfl rfl
    (by simp [Layers.concatCreate, Tensor.shape, tensorOf, buffer])
  refine ⟨u, q, r, h1, h2, g1, g2, g3, ?_⟩
  have e1 : u.samples = samples := h2.1.symm
  have e2 : u.width = width := h2.2.1.symm
  have e3 : u.height = height := h2.2.2.1.symm
  have e4 : u.maps = maps + maps' := h2.2.2.2.symm
  unfold dot
  simp only [e1, e2, e3, e4, tensorOf_samples, tensorOf_width, tensorOf_height, tensorOf_maps]
  rw [← Finset.sum_add_distrib]
  refine Finset.sum_congr rfl fun s hs => ?_
  have hs' := Finset.mem_range.1 hs
  rw [Finset.sum_range_add]
  refine congrArg₂ (· + ·) ?_ ?_
  · refine Finset.sum_congr rfl fun m hm => Finset.sum_congr rfl fun y hy => Finset.sum_congr rfl fun x hx => ?_
    have hin : (tensorOf ⟨samples, width, height, maps⟩ v).InRange x y m s := ⟨Finset.mem_range.1 hx,
      Finset.mem_range.1 hy, Finset.mem_range.1 hm, hs'⟩
    have k1 := h4 x y m s hin
    rw [get_eq_val (tensorOf_wf _ v) hin] at k1
    have k2 := g6 x y m s hin
    rw [get_eq_val (tensorOf_wf _ d) (show (tensorOf ⟨samples, width, height, maps + maps'⟩ d).InRange x y m s from
      ⟨hin.1, hin.2.1, Nat.lt_add_right _ hin.2.2.1, hs'⟩)] at k2
    rw [val_of_get k1, val_of_get k2]
  · refine Finset.sum_congr rfl fun m hm => Finset.sum_congr rfl fun y hy => Finset.sum_congr rfl fun x hx => ?_
    have hin : (tensorOf ⟨samples, width, height, maps'⟩ w).InRange x y m s := ⟨Finset.mem_range.1 hx,
      Finset.mem_range.1 hy, Finset.mem_range.1 hm, hs'⟩
    have k1 : u.get x y (maps + m) s = _ := h5 x y m s hin
    rw [get_eq_val (tensorOf_wf _ w) hin] at k1
    have k2 : r.get x y m s = (tensorOf ⟨samples, width, height, maps + maps'⟩ d).get x y (maps + m) s :=
      g7 x y m s hin
    rw [get_eq_val (tensorOf_wf _ d) (show (tensorOf ⟨samples, width, height, maps + maps'⟩ d).InRange x y
      (maps + m) s from ⟨hin.1, hin.2.1, Nat.add_lt_add_left hin.2.2.1 _, hs'⟩)] at k2
    rw [val_of_get k1, val_of_get k2]

/-! ### Error layer -/

/-- C65, error layers back-propagate exactly: label and weight come from the input and have no propagation. -/
theorem C65_error (lw : ℝ) (sh wsh : Shape) (hw : wsh.samples = sh.samples ∧ wsh.width = sh.width ∧
      wsh.height = sh.height ∧ 0 < wsh.maps) (pr : Bool) (out : Nat → Nat) (p : Vec) (x : Nat → Vec) :
    ExactAt (errorSem lw sh wsh) 0 [(sh.elements, pr), (sh.elements, false), (wsh.elements, false)] 0 out p x := by
  intro P P' X X' _ hX _ hX' hstop
  have hfit : ∀ v w : Vec, WeightsFit (tensorOf sh v) (tensorOf wsh w) := fun v w => hw
  have hloss : ∀ z : Nat → Vec, (errorSem lw sh wsh).loss p z = (∑ s ∈ range sh.samples, ∑ m ∈ range sh.maps,
      ∑ y ∈ range sh.height, ∑ x ∈ range sh.width,
        ((tensorOf sh (z 0)).val x y m s - (tensorOf sh (z 1)).val x y m s) *
        ((tensorOf sh (z 0)).val x y m s - (tensorOf sh (z 1)).val x y m s) *
          (tensorOf wsh (z 2)).val x y 0 s * lw) / 2 := by
    intro z
    show (ErrorLayer.loss lw _ _ _).getD 0 = _
    rw [error_loss lw (tensorOf_wf _ _) (tensorOf_wf _ _) (tensorOf_wf _ _) (tensorOf_sh _ _ _) (hfit _ _)]
    rfl
  obtain ⟨dt, hd1, hd2, hd3, hd4⟩ := error_forward lw (tensorOf_wf sh (x 0)) (tensorOf_wf sh (x 1))
    (tensorOf_wf wsh (x 2)) (tensorOf_wf sh 0) (tensorOf_sh _ _ _) (tensorOf_sh _ _ _) (hfit _ _)
  refine ⟨0, dot (tensorOf sh (X' 0)) dt, by intro b hb; omega, ?_, ?_⟩
  · have hL : (fun s => (errorSem lw sh wsh).loss (P s) (X s)) = fun s => (errorSem lw sh wsh).loss p (X s) := rfl
    rw [hL]
    simp only [hloss]
    have hdot : dot (tensorOf sh (X' 0)) dt = (∑ s ∈ range sh.samples, ∑ m ∈ range sh.maps,
      ∑ y ∈ range sh.height, ∑ x ∈ range sh.width, 2 * ((tensorOf sh (X' 0)).val x y m s * dt.val x y m s)) / 2 := by
      unfold dot
      simp only [← Finset.mul_sum, tensorOf_samples, tensorOf_width, tensorOf_height, tensorOf_maps]
      rw [mul_div_cancel_left₀ _ (by norm_num : (2 : ℝ) ≠ 0)]
    rw [hdot]
    refine HasDerivAt.div_const ?_ 2
    refine HasDerivAt.fun_sum fun s hs => HasDerivAt.fun_sum fun m hm => HasDerivAt.fun_sum fun y hy =>
      HasDerivAt.fun_sum fun xx hx => ?_
    have hin : (tensorOf sh (x 0)).InRange xx y m s := ⟨Finset.mem_range.1 hx, Finset.mem_range.1 hy,
      Finset.mem_range.1 hm, Finset.mem_range.1 hs⟩
    have hinw : (tensorOf wsh (x 2)).InRange xx y 0 s := by
      obtain ⟨a, b, c, e⟩ := hw
      obtain ⟨i1, i2, i3, i4⟩ := hin
      exact ⟨by rw [tensorOf_width, b]; exact i1, by rw [tensorOf_height, c]; exact i2, e,
        by rw [tensorOf_samples, a]; exact i4⟩
    have hlt := offset_lt _ hin
    rw [elements_shape] at hlt
    have hltw := offset_lt _ hinw
    rw [elements_shape] at hltw
    have hv : ∀ v : Vec, (tensorOf sh v).val xx y m s = v ((tensorOf sh (x 0)).offset xx y m s) :=
      fun v => tensorOf_val sh v hin
    have hvw : ∀ v : Vec, (tensorOf wsh v).val xx y 0 s = v ((tensorOf wsh (x 2)).offset xx y 0 s) :=
      fun v => tensorOf_val wsh v hinw
    rw [hd4 xx y m s hin]
    simp only [hv, hvw]
    have d0 := hX' 0 sh.elements pr rfl _ hlt
    have d1 := hX' 1 sh.elements false rfl _ hlt
    have d2 := hX' 2 wsh.elements false rfl _ hltw
    rw [hstop 1 sh.elements rfl _ hlt] at d1
    rw [hstop 2 wsh.elements rfl _ hltw] at d2
    have := (((d0.sub d1).mul (d0.sub d1)).mul d2).mul_const lw
    simp only [Pi.sub_apply, Pi.mul_apply, hX] at this
    refine this.congr_deriv ?_
    ring
  · intro d
    refine ⟨fun _ => vecOf dt, ?_, ?_⟩
    · intro j k hj
      match j with
      | 0 =>
        show (ErrorLayer.forward lw _ _ _ (buffer sh)).map vecOf = _
        unfold buffer
        rw [hd1]
        rfl
      | 1 => simp at hj
      | 2 => simp at hj
      | j + 3 => simp at hj
    · rw [sum_inputs _ _ X' hstop]
      show _ = ∑ j ∈ range 3, _ + _
      have z1 : pair sh.elements (vecOf dt) (X' 1) = 0 :=
        Finset.sum_eq_zero fun i hi => by rw [hstop 1 sh.elements rfl i (Finset.mem_range.1 hi), mul_zero]
      have z2 : pair wsh.elements (vecOf dt) (X' 2) = 0 :=
        Finset.sum_eq_zero fun i hi => by rw [hstop 2 wsh.elements rfl i (Finset.mem_range.1 hi), mul_zero]
      rw [Finset.sum_range_succ, Finset.sum_range_succ, Finset.sum_range_succ, Finset.sum_range_zero]
      show dot (tensorOf sh (X' 0)) dt + _ = 0 + pair sh.elements (vecOf dt) (X' 0) +
        pair sh.elements (vecOf dt) (X' 1) + pair wsh.elements (vecOf dt) (X' 2) + pair 0 _ _
      rw [z1, z2, dot_tensorOf' sh dt (X' 0) hd2]
      simp [pair]

/-! ### Convolution layers -/

theorem tensorOf_congr (sh : Shape) {v w : Vec} (h : ∀ i < sh.elements, v i = w i) : tensorOf sh v = tensorOf sh w := by
  unfold tensorOf
  congr 1
  refine List.map_congr_left fun i hi => h i ?_
  rw [← elements_shape sh 0]
  exact List.mem_range.1 hi

theorem val_add (sh : Shape) (v w : Vec) {x y m s : Nat} (h : (tensorOf sh 0).InRange x y m s) :
    (tensorOf sh fun i => v i + w i).val x y m s = (tensorOf sh v).val x y m s + (tensorOf sh w).val x y m s := by
  rw [tensorOf_val sh (fun i => v i + w i) h, tensorOf_val sh v h, tensorOf_val sh w h]

theorem val_hasDerivAt (sh : Shape) (X : ℝ → Vec) (X' : Vec)
    (hX : ∀ i < sh.elements, HasDerivAt (fun t => X t i) (X' i) 0) {x y m s : Nat}
    (h : (tensorOf sh 0).InRange x y m s) :
    HasDerivAt (fun t => (tensorOf sh (X t)).val x y m s) ((tensorOf sh X').val x y m s) 0 := by
  have hlt := offset_lt _ h
  rw [elements_shape] at hlt
  have hv : ∀ v : Vec, (tensorOf sh v).val x y m s = v ((tensorOf sh 0).offset x y m s) :=
    fun v => tensorOf_val sh v h
  simp only [hv]
  exact hX _ hlt

theorem pixel_inside {sh : Shape} {x y : Int} {m s : Nat} (hm : m < sh.maps) (hs : s < sh.samples)
    (h : 0 ≤ x ∧ x < sh.width ∧ 0 ≤ y ∧ y < sh.height) : (tensorOf sh 0).InRange x.toNat y.toNat m s :=
  ⟨by rw [tensorOf_width]; omega, by rw [tensorOf_height]; omega, hm, hs⟩

theorem pixel_pos {sh : Shape} (v : Vec) {x y : Int} {m s : Nat} (h : 0 ≤ x ∧ x < sh.width ∧ 0 ≤ y ∧ y < sh.height) :
    pixel (tensorOf sh v) x y m s = (tensorOf sh v).val x.toNat y.toNat m s := if_pos h

theorem pixel_neg {sh : Shape} (v : Vec) {x y : Int} {m s : Nat} (h : ¬(0 ≤ x ∧ x < sh.width ∧ 0 ≤ y ∧ y < sh.height)) :
    pixel (tensorOf sh v) x y m s = 0 := if_neg h

theorem pixel_add (sh : Shape) (v w : Vec) {x y : Int} {m s : Nat} (hm : m < sh.maps) (hs : s < sh.samples) :
    pixel (tensorOf sh fun i => v i + w i) x y m s = pixel (tensorOf sh v) x y m s + pixel (tensorOf sh w) x y m s := by
  by_cases h : 0 ≤ x ∧ x < sh.width ∧ 0 ≤ y ∧ y < sh.height
  · rw [pixel_pos _ h, pixel_pos _ h, pixel_pos _ h, val_add sh v w (pixel_inside hm hs h)]
  · rw [pixel_neg _ h, pixel_neg _ h, pixel_neg _ h, add_zero]

theorem pixel_hasDerivAt (sh : Shape) (X : ℝ → Vec) (X' : Vec)
    (hX : ∀ i < sh.elements, HasDerivAt (fun t => X t i) (X' i) 0) {x y : Int} {m s : Nat} (hm : m < sh.maps)
    (hs : s < sh.samples) :
    HasDerivAt (fun t => pixel (tensorOf sh (X t)) x y m s) (pixel (tensorOf sh X') x y m s) 0 := by
  by_cases h : 0 ≤ x ∧ x < sh.width ∧ 0 ≤ y ∧ y < sh.height
  · simp only [pixel_pos _ h]
    exact val_hasDerivAt sh X X' hX (pixel_inside hm hs h)
  · simp only [pixel_neg _ h]
    exact hasDerivAt_const _ _

theorem shape_is {t : Tensor ℝ} {a b c d : Nat} (h : t.Is a b c d) (v : Vec) : (tensorOf t.shape v).Is a b c d := by
  obtain ⟨h1, h2, h3, h4, -⟩ := h
  exact ⟨h1, h2, h3, h4, tensorOf_wf _ _⟩

theorem is_sh {t u : Tensor ℝ} {a b c d : Nat} (h : t.Is a b c d) (h' : u.Is a b c d) : Sh (tensorOf t.shape 0) u := by
  obtain ⟨h1, h2, h3, h4, -⟩ := h
  obtain ⟨q1, q2, q3, q4, -⟩ := h'
  exact ⟨h1.trans q1.symm, h2.trans q2.symm, h3.trans q3.symm, h4.trans q4.symm⟩

theorem convAt_connected {l : Convolution.Layer ℝ} (h : l.Connected) (p : Vec) (x : Nat → Vec) :
    (convAt l p x).Connected :=
  { h with
    input := shape_is h.input _
    weights := shape_is h.weights _
    bias := shape_is h.bias _ }

/-- The value of one output entry of a convolution layer. -/
noncomputable def convEntry (l : Convolution.Layer ℝ) (b w i : Tensor ℝ) (ox oy om s : Nat) : ℝ :=
  b.val om 0 0 0 + ∑ im ∈ range (l.inputMaps / l.params.group), ∑ ky ∈ range l.params.kernelHeight,
    ∑ kx ∈ range l.params.kernelWidth, w.val kx ky im om *
      pixel i ((ox : Int) * l.params.strideWidth + kx - l.params.padWidth)
        ((oy : Int) * l.params.strideHeight + ky - l.params.padHeight)
        (om / (l.params.outputMaps / l.params.group) * (l.inputMaps / l.params.group) + im) s

/-- What a convolution layer leaves in its output. -/
noncomputable def convOut (l : Convolution.Layer ℝ) : Vec := match l.feedForward false with
  | .done l1 => vecOf l1.output
  | _ => 0

theorem convOut_entry {l : Convolution.Layer ℝ} (h : l.Connected) (hd : l.dropout = 0) {ox oy om s : Nat}
    (hin : (tensorOf l.output.shape 0).InRange ox oy om s) :
    convOut l ((tensorOf l.output.shape 0).offset ox oy om s) = convEntry l l.bias l.weights l.input ox oy om s := by
  obtain ⟨l1, h1, h2, ⟨a, b, c, h3⟩, h4⟩ := C35_forward l h false (Or.inr hd)
  obtain ⟨o1, o2, o3, o4, -⟩ := h.output
  obtain ⟨i1, i2, i3, i4⟩ := hin
  have g := h4 ox oy om s (by rw [← o2]; exact i1) (by rw [← o3]; exact i2) (by rw [← o4]; exact i3)
    (by rw [← o1]; exact i4)
  have hs : Sh (tensorOf l.output.shape 0) l1.output := by
    subst h3
    obtain ⟨q1, q2, q3, q4, -⟩ := h2.output
    exact ⟨o1.trans q1.symm, o2.trans q2.symm, o3.trans q3.symm, o4.trans q4.symm⟩
  unfold convOut
  rw [h1]
  have hval : l1.output.val ox oy om s = l1.output.data.getD ((tensorOf l.output.shape 0).offset ox oy om s) 0 := by
    unfold Tensor.val
    rw [hs.offset]
  show l1.output.data.getD _ 0 = _
  rw [← hval, val_of_get g]
  unfold convEntry
  simp only [Bool.false_eq_true, if_false, one_mul]

theorem firstMap_lt {OM IM G om im : Nat} (h1 : G ∣ IM) (h2 : G ∣ OM) (hom : om < OM)
    (him : im < IM / G) : om / (OM / G) * (IM / G) + im < IM := by
  have hq : om / (OM / G) < G := by
    refine Nat.div_lt_of_lt_mul ?_
    rw [Nat.div_mul_cancel h2]
    exact hom
  calc om / (OM / G) * (IM / G) + im < om / (OM / G) * (IM / G) + IM / G := by omega
    _ = (om / (OM / G) + 1) * (IM / G) := by rw [Nat.add_mul, Nat.one_mul]
    _ ≤ G * (IM / G) := Nat.mul_le_mul_right _ hq
    _ = IM := Nat.mul_div_cancel' h1

theorem pair_joined (n m : Nat) (a b P : Vec) :
    pair (n + m) (joined n a b) P = pair n a P + pair m b fun i => P (n + i) := by
  unfold pair joined
  rw [Finset.sum_range_add]
  congr 1
  · refine Finset.sum_congr rfl fun i hi => ?_
    rw [if_pos (Finset.mem_range.1 hi)]
  · refine Finset.sum_congr rfl fun i _ => ?_
    rw [if_neg (by omega), Nat.add_sub_cancel_left]

/-- C65, convolution layers without dropout back-propagate exactly, in their weights, their bias and their
input; towards the input where the column test of `COL2IM` agrees with the row test, see C57. -/
theorem C65_convolution (l : Convolution.Layer ℝ) (h : l.Connected) (hd : l.dropout = 0) (pr : Bool)
    (hc : pr = true → ColumnTestAgrees l) (p : Vec) (x : Nat → Vec) :
    ExactAt (convSem l) (l.weights.elements + l.bias.elements) [(l.input.elements, pr)] 1
      (fun _ => l.output.elements) p x := by
  intro P P' X X' hP hX hP' hX' hstop
  have hcon : ∀ p x, (convAt l p x).Connected := convAt_connected h
  have hX0 := hX' 0 l.input.elements pr rfl
  -- the three changed layers
  let W1 := tensorOf l.weights.shape fun i => p i + P' i
  let b1 := tensorOf l.bias.shape fun i => p (l.weights.elements + i) + P' (l.weights.elements + i)
  let x1 := tensorOf l.input.shape fun i => x 0 i + X' 0 i
  let LW : Convolution.Layer ℝ := { convAt l p x with weights := W1 }
  let Lb : Convolution.Layer ℝ := { convAt l p x with bias := b1 }
  let Lx : Convolution.Layer ℝ := { convAt l p x with input := x1 }
  have hW1 : W1.Is l.params.outputMaps l.params.kernelWidth l.params.kernelHeight
    (l.inputMaps / l.params.group) := shape_is h.weights _
  have hb1 : b1.Is 1 l.params.outputMaps 1 1 := shape_is h.bias _
  have hx1 : x1.Is l.input.samples l.inputWidth l.inputHeight l.inputMaps := shape_is h.input _
  have cW : LW.Connected := { hcon p x with weights := hW1 }
  have cb : Lb.Connected := { hcon p x with bias := hb1 }
  have cx : Lx.Connected := { hcon p x with input := hx1 }
  let Y' : Nat → Vec := fun _ i => (convOut LW i - convOut (convAt l p x) i) +
    (convOut Lb i - convOut (convAt l p x) i) + (convOut Lx i - convOut (convAt l p x) i)
  have key : ∀ i < l.output.elements, HasDerivAt (fun s => convOut (convAt l (P s) (X s)) i) (Y' 0 i) 0 := by
    intro i hi
    rw [← shape_elements, ← elements_shape l.output.shape 0] at hi
    obtain ⟨ox, oy, om, s, hin, rfl⟩ := offset_surj _ hi
    have e0 : ∀ p x, convOut (convAt l p x) ((tensorOf l.output.shape 0).offset ox oy om s) =
        convEntry l (convAt l p x).bias (convAt l p x).weights (convAt l p x).input ox oy om s :=
      fun p x => convOut_entry (hcon p x) hd hin
    have eW : convOut LW ((tensorOf l.output.shape 0).offset ox oy om s) =
        convEntry l (convAt l p x).bias W1 (convAt l p x).input ox oy om s := convOut_entry cW hd hin
    have eb : convOut Lb ((tensorOf l.output.shape 0).offset ox oy om s) =
        convEntry l b1 (convAt l p x).weights (convAt l p x).input ox oy om s := convOut_entry cb hd hin
    have ex : convOut Lx ((tensorOf l.output.shape 0).offset ox oy om s) =
        convEntry l (convAt l p x).bias (convAt l p x).weights x1 ox oy om s := convOut_entry cx hd hin
    obtain ⟨o1, o2, o3, o4, -⟩ := h.output
    obtain ⟨i1, i2, i3, i4⟩ := hin
    have hom : om < l.params.outputMaps := by rw [← o4]; exact i3
    have hs : s < l.input.shape.samples := by
      show s < l.input.samples
      rw [← o1]; exact i4
    obtain ⟨w1, w2, w3, w4, -⟩ := h.weights
    obtain ⟨q1, q2, q3, q4, -⟩ := h.bias
    obtain ⟨j1, j2, j3, j4, -⟩ := h.input
    have rb : (tensorOf l.bias.shape 0).InRange om 0 0 0 :=
      ⟨by show om < l.bias.width; omega, by show 0 < l.bias.height; omega,
        by show 0 < l.bias.maps; omega, by show 0 < l.bias.samples; omega⟩
    have rw' : ∀ im ky kx, im ∈ range (l.inputMaps / l.params.group) → ky ∈ range l.params.kernelHeight →
        kx ∈ range l.params.kernelWidth → (tensorOf l.weights.shape 0).InRange kx ky im om := by
      intro im ky kx a b c
      have a := Finset.mem_range.1 a
      have b := Finset.mem_range.1 b
      have c := Finset.mem_range.1 c
      exact ⟨by show kx < l.weights.width; omega, by show ky < l.weights.height; omega,
        by show im < l.weights.maps; omega, by show om < l.weights.samples; omega⟩
    have ri : ∀ im, im ∈ range (l.inputMaps / l.params.group) →
        om / (l.params.outputMaps / l.params.group) * (l.inputMaps / l.params.group) + im < l.input.shape.maps := by
      intro im a
      show _ < l.input.maps
      rw [j4]
      exact firstMap_lt h.group_in h.group_out hom (Finset.mem_range.1 a)
    have dW := @val_hasDerivAt l.weights.shape P P' (fun i hi => hP' i (by rw [shape_elements] at hi; omega))
    have db := @val_hasDerivAt l.bias.shape (fun s i => P s (l.weights.elements + i))
      (fun i => P' (l.weights.elements + i)) (fun i hi => hP' _ (by rw [shape_elements] at hi; omega))
    have dx := @pixel_hasDerivAt l.input.shape (fun s => X s 0) (X' 0)
      (fun i hi => hX0 i (by rw [shape_elements] at hi; exact hi))
    have hsum := (db rb).add (HasDerivAt.fun_sum (u := range (l.inputMaps / l.params.group)) fun im him =>
      HasDerivAt.fun_sum (u := range l.params.kernelHeight) fun ky hky =>
      HasDerivAt.fun_sum (u := range l.params.kernelWidth) fun kx hkx =>
        (dW (rw' im ky kx him hky hkx)).mul
          (dx (x := (ox : Int) * l.params.strideWidth + kx - l.params.padWidth)
          (y := (oy : Int) * l.params.strideHeight + ky - l.params.padHeight) (ri im him) hs))
    simp only [e0]
    refine HasDerivAt.congr_deriv (f' := _) (hsum.congr_of_eventuallyEq (Filter.Eventually.of_forall ?_)) ?_
    · intro t
      rfl
    · show _ = (convOut LW _ - convOut (convAt l p x) _) + (convOut Lb _ - convOut (convAt l p x) _) +
        (convOut Lx _ - convOut (convAt l p x) _)
      rw [eW, eb, ex, e0]
      unfold convEntry
      rw [hP, hX]
      have sW : (∑ im ∈ range (l.inputMaps / l.params.group), ∑ ky ∈ range l.params.kernelHeight,
          ∑ kx ∈ range l.params.kernelWidth, W1.val kx ky im om *
            pixel (convAt l p x).input ((ox : Int) * l.params.strideWidth + kx - l.params.padWidth)
              ((oy : Int) * l.params.strideHeight + ky - l.params.padHeight)
              (om / (l.params.outputMaps / l.params.group) * (l.inputMaps / l.params.group) + im) s) =
          (∑ im ∈ range (l.inputMaps / l.params.group), ∑ ky ∈ range l.params.kernelHeight,
          ∑ kx ∈ range l.params.kernelWidth, (convAt l p x).weights.val kx ky im om *
            pixel (convAt l p x).input ((ox : Int) * l.params.strideWidth + kx - l.params.padWidth)
              ((oy : Int) * l.params.strideHeight + ky - l.params.padHeight)
              (om / (l.params.outputMaps / l.params.group) * (l.inputMaps / l.params.group) + im) s) +
          (∑ im ∈ range (l.inputMaps / l.params.group), ∑ ky ∈ range l.params.kernelHeight,
          ∑ kx ∈ range l.params.kernelWidth, (tensorOf l.weights.shape P').val kx ky im om *
            pixel (convAt l p x).input ((ox : Int) * l.params.strideWidth + kx - l.params.padWidth)
              ((oy : Int) * l.params.strideHeight + ky - l.params.padHeight)
              (om / (l.params.outputMaps / l.params.group) * (l.inputMaps / l.params.group) + im) s) := by
        simp only [← Finset.sum_add_distrib]
        refine Finset.sum_congr rfl fun im him => Finset.sum_congr rfl fun ky hky =>
          Finset.sum_congr rfl fun kx hkx => ?_
        rw [← add_mul]
        congr 1
        exact val_add _ p P' (rw' im ky kx him hky hkx)
      have sx : (∑ im ∈ range (l.inputMaps / l.params.group), ∑ ky ∈ range l.params.kernelHeight,
          ∑ kx ∈ range l.params.kernelWidth, (convAt l p x).weights.val kx ky im om *
            pixel x1 ((ox : Int) * l.params.strideWidth + kx - l.params.padWidth)
              ((oy : Int) * l.params.strideHeight + ky - l.params.padHeight)
              (om / (l.params.outputMaps / l.params.group) * (l.inputMaps / l.params.group) + im) s) =
          (∑ im ∈ range (l.inputMaps / l.params.group), ∑ ky ∈ range l.params.kernelHeight,
          ∑ kx ∈ range l.params.kernelWidth, (convAt l p x).weights.val kx ky im om *
            pixel (convAt l p x).input ((ox : Int) * l.params.strideWidth + kx - l.params.padWidth)
              ((oy : Int) * l.params.strideHeight + ky - l.params.padHeight)
              (om / (l.params.outputMaps / l.params.group) * (l.inputMaps / l.params.group) + im) s) +
          (∑ im ∈ range (l.inputMaps / l.params.group), ∑ ky ∈ range l.params.kernelHeight,
          ∑ kx ∈ range l.params.kernelWidth, (convAt l p x).weights.val kx ky im om *
            pixel (tensorOf l.input.shape (X' 0)) ((ox : Int) * l.params.strideWidth + kx - l.params.padWidth)
              ((oy : Int) * l.params.strideHeight + ky - l.params.padHeight)
              (om / (l.params.outputMaps / l.params.group) * (l.inputMaps / l.params.group) + im) s) := by
        simp only [← Finset.sum_add_distrib]
        refine Finset.sum_congr rfl fun im him => Finset.sum_congr rfl fun ky hky =>
          Finset.sum_congr rfl fun kx hkx => ?_
        rw [← mul_add]
        congr 1
        exact pixel_add _ (x 0) (X' 0) (ri im him) hs
      have sb : b1.val om 0 0 0 = (convAt l p x).bias.val om 0 0 0 +
          (tensorOf l.bias.shape fun i => P' (l.weights.elements + i)).val om 0 0 0 := val_add _ _ _ rb
      rw [sW, sx, sb]
      simp only [Finset.sum_add_distrib]
      show _ + (_ + _) = _
      simp only [convAt]
      ring
  refine ⟨Y', 0, ?_, hasDerivAt_const _ _, ?_⟩
  · intro b hb i hi
    exact key i hi
  · intro d
    have hdel : (tensorOf l.outputDelta.shape (d 0)).Is l.input.samples l.outputWidth l.outputHeight
      l.params.outputMaps := shape_is h.outputDelta _
    have hshape : l.outputDelta.shape = l.output.shape := by
      obtain ⟨a1, a2, a3, a4, -⟩ := h.outputDelta
      obtain ⟨b1, b2, b3, b4, -⟩ := h.output
      unfold Tensor.shape
      rw [a1, a2, a3, a4, b1, b2, b3, b4]
    obtain ⟨l1, l2, f1, f2, -, si, sw, sb, fW, fb⟩ := C57_parameter_gradients_partial (convAt l p x) (hcon p x) hd
      (tensorOf l.outputDelta.shape (d 0)) hdel pr hc
    obtain ⟨lw, gw1, gw2⟩ := fW W1 hW1
    obtain ⟨lb, gb1, gb2⟩ := fb b1 hb1
    have hback : convBack l pr p x d = .done l2 := by
      unfold convBack
      rw [f1]
      exact f2
    have outSh : ∀ {l l' : Convolution.Layer ℝ}, l.Connected → l.dropout = 0 → l.feedForward false = .done l' →
        Sh (tensorOf l.output.shape 0) l'.output := by
      intro l l' h hd e
      obtain ⟨l1, h1, h2, ⟨a, b, c, h3⟩, -⟩ := C35_forward l h false (Or.inr hd)
      rw [h1] at e
      cases e
      subst h3
      obtain ⟨o1, o2, o3, o4, -⟩ := h.output
      obtain ⟨q1, q2, q3, q4, -⟩ := h2.output
      exact ⟨o1.trans q1.symm, o2.trans q2.symm, o3.trans q3.symm, o4.trans q4.symm⟩
    have cOut : ∀ {l l' : Convolution.Layer ℝ}, l.feedForward false = .done l' → convOut l = vecOf l'.output := by
      intro l l' e
      unfold convOut
      rw [e]
    have hdot : ∀ {L L' : Convolution.Layer ℝ}, L.Connected → L.dropout = 0 → L.output.shape = l.output.shape →
        L.feedForward false = .done L' →
        dot L'.output (tensorOf l.outputDelta.shape (d 0)) = pair l.output.elements (d 0) (convOut L) := by
      intro L L' hL hLd hs e
      rw [hshape, dot_tensorOf _ _ _ (hs ▸ outSh hL hLd e), cOut e, shape_elements]
    have hsplit : pair l.output.elements (d 0) (Y' 0) =
        (pair l.output.elements (d 0) (convOut LW) - pair l.output.elements (d 0) (convOut (convAt l p x))) +
        (pair l.output.elements (d 0) (convOut Lb) - pair l.output.elements (d 0) (convOut (convAt l p x))) +
        (pair l.output.elements (d 0) (convOut Lx) - pair l.output.elements (d 0) (convOut (convAt l p x))) := by
      rw [pair_sub, pair_sub, pair_sub]
      unfold pair
      rw [← Finset.sum_add_distrib, ← Finset.sum_add_distrib]
      refine Finset.sum_congr rfl fun i _ => ?_
      show d 0 i * ((_ - _) + (_ - _) + (_ - _)) = _
      ring
    have pW : pair l.output.elements (d 0) (convOut LW) - pair l.output.elements (d 0) (convOut (convAt l p x)) =
        pair l.weights.elements (vecOf l2.weightsDelta) P' := by
      rw [← hdot cW hd rfl gw1, ← hdot (hcon p x) hd rfl f1, gw2]
      have hs : Sh (tensorOf l.weights.shape 0) l2.weightsDelta := is_sh h.weights sw
      show dot (tensorOf l.weights.shape _) _ - dot (tensorOf l.weights.shape _) _ = _
      rw [dot_tensorOf' _ _ _ hs, dot_tensorOf' _ _ _ hs, pair_sub, shape_elements]
      unfold pair
      exact Finset.sum_congr rfl fun i _ => by ring
    have pb : pair l.output.elements (d 0) (convOut Lb) - pair l.output.elements (d 0) (convOut (convAt l p x)) =
        pair l.bias.elements (vecOf l2.biasDelta) fun i => P' (l.weights.elements + i) := by
      rw [← hdot cb hd rfl gb1, ← hdot (hcon p x) hd rfl f1, gb2]
      have hs : Sh (tensorOf l.bias.shape 0) l2.biasDelta := is_sh h.bias sb
      show dot (tensorOf l.bias.shape _) _ - dot (tensorOf l.bias.shape _) _ = _
      rw [dot_tensorOf' _ _ _ hs, dot_tensorOf' _ _ _ hs, pair_sub, shape_elements]
      unfold pair
      exact Finset.sum_congr rfl fun i _ => by ring
    have px : pair l.output.elements (d 0) (convOut Lx) - pair l.output.elements (d 0) (convOut (convAt l p x)) =
        pair l.input.elements (vecOf l2.inputDelta) (X' 0) := by
      cases pr with
      | true =>
        obtain ⟨m1, m2, e1, e2, ex⟩ := C57_input_gradient_partial (convAt l p x) (hcon p x) hd
          (tensorOf l.outputDelta.shape (d 0)) hdel (hc rfl)
        rw [f1] at e1
        cases e1
        rw [f2] at e2
        cases e2
        obtain ⟨lx, gx1, gx2⟩ := ex x1 hx1
        rw [← hdot cx hd rfl gx1, ← hdot (hcon p x) hd rfl f1, gx2]
        have hs : Sh (tensorOf l.input.shape 0) l2.inputDelta := is_sh h.input si
        show dot (tensorOf l.input.shape _) _ - dot (tensorOf l.input.shape _) _ = _
        rw [dot_tensorOf' _ _ _ hs, dot_tensorOf' _ _ _ hs, pair_sub, shape_elements]
        unfold pair
        exact Finset.sum_congr rfl fun i _ => by ring
      | false =>
        have hz := hstop 0 l.input.elements rfl
        have hLx : Lx = convAt l p x := by
          show ({ convAt l p x with input := x1 } : Convolution.Layer ℝ) = _
          have : x1 = (convAt l p x).input :=
            tensorOf_congr _ fun i hi => by rw [hz i (by rw [shape_elements] at hi; exact hi), add_zero]
          rw [this]
        rw [hLx, sub_self]
        exact (Finset.sum_eq_zero fun i hi => by rw [hz i (Finset.mem_range.1 hi), mul_zero]).symm
    refine ⟨fun _ => vecOf l2.inputDelta, ?_, ?_⟩
    · intro j k hj
      match j with
      | 0 =>
        simp only [List.getElem?_cons_zero, Option.some.injEq, Prod.mk.injEq] at hj
        obtain ⟨-, rfl⟩ := hj
        show (match convBack l true p x d with
          | .done l2 => _
          | _ => _ : (Nat → Option Vec) × Vec).1 0 = _
        rw [hback]
        rfl
      | j + 1 => simp at hj
    · rw [sum_inputs _ _ X' hstop]
      have hb2 : ((convSem l).backward ([(l.input.elements, pr)].any fun x => x.2) p x ((convSem l).forward p x) d).2 =
          joined l.weights.elements (vecOf l2.weightsDelta) (vecOf l2.biasDelta) := by
        have he : ([(l.input.elements, pr)].any fun x => x.2) = pr := by simp
        rw [he]
        show (match convBack l pr p x d with
          | .done l2 => _
          | _ => _ : (Nat → Option Vec) × Vec).2 = _
        rw [hback]
      rw [hb2]
      show 0 + ∑ b ∈ range 1, pair l.output.elements (d b) (Y' b) =
        ∑ j ∈ range 1, pair ([(l.input.elements, pr)].getD j (0, false)).1 (vecOf l2.inputDelta) (X' j) + _
      rw [Finset.sum_range_one, Finset.sum_range_one, hsplit, pW, pb, px, pair_joined]
      show _ = pair l.input.elements (vecOf l2.inputDelta) (X' 0) + _
      ring

/-! ### Pooling layers -/

/-- The value at `(x0 + i, y0 + j)` is above all others of the window with corner `(x0, y0)`. -/
def UniqueMax (t : Tensor ℝ) (x0 y0 rw rh m s i j : Nat) : Prop :=
  i < rw ∧ j < rh ∧ ∀ i' j', i' < rw → j' < rh → ¬ (i' = i ∧ j' = j) →
    t.val (x0 + i') (y0 + j') m s < t.val (x0 + i) (y0 + j) m s

/-- No window has two greatest values. -/
def NoTies (rw rh sw sh ow oh : Nat) (inp : Shape) (v : Vec) : Prop :=
  ∀ ox oy m s, ox < ow → oy < oh → m < inp.maps → s < inp.samples →
    ∃ i j, UniqueMax (tensorOf inp v) (ox * sw) (oy * sh) rw rh m s i j

/-- The regions lie inside of the image. -/
def Inside (rw rh sw sh ow oh : Nat) (inp : Shape) : Prop :=
  (∀ ox, ox < ow → ox * sw + rw ≤ inp.width) ∧ ∀ oy, oy < oh → oy * sh + rh ≤ inp.height

theorem near_order (n : Nat) (X : ℝ → Vec) (hX : ∀ i < n, ContinuousAt (fun t => X t i) 0) :
    ∀ᶠ t in nhds (0 : ℝ), ∀ k ∈ range n, ∀ k' ∈ range n, X 0 k < X 0 k' → X t k < X t k' := by
  refine (Filter.eventually_all_finset _).2 fun k hk => (Filter.eventually_all_finset _).2 fun k' hk' => ?_
  by_cases h : X 0 k < X 0 k'
  · refine (Filter.Tendsto.eventually_lt (hX k (Finset.mem_range.1 hk)) (hX k' (Finset.mem_range.1 hk')) h).mono ?_
    intro t ht _
    exact ht
  · exact Filter.Eventually.of_forall fun t ht => absurd ht h

theorem near_above (n : Nat) (lowest : ℝ) (X : ℝ → Vec) (hX : ∀ i < n, ContinuousAt (fun t => X t i) 0)
    (h : ∀ i < n, lowest < X 0 i) : ∀ᶠ t in nhds (0 : ℝ), ∀ k ∈ range n, lowest < X t k := by
  refine (Filter.eventually_all_finset _).2 fun k hk => ?_
  exact Filter.Tendsto.eventually_lt tendsto_const_nhds (hX k (Finset.mem_range.1 hk)) (h k (Finset.mem_range.1 hk))

theorem get_val_of {t : Tensor ℝ} (hw : t.WF) {x y m s : Nat} (h : t.InRange x y m s) :
    t.get x y m s = some (t.val x y m s) := by
  obtain ⟨v, hv⟩ := Pooling.get_some hw h
  rw [hv, val_of_get hv]

/-- A greatest value is taken at the position of the only one. -/
theorem regionMax_unique {t : Tensor ℝ} (hw : t.WF) {x0 y0 rw rh m s i j : Nat} {v : ℝ}
    (hin : ∀ i j, i < rw → j < rh → t.InRange (x0 + i) (y0 + j) m s)
    (hu : UniqueMax t x0 y0 rw rh m s i j) (hm : RegionMax t x0 y0 rw rh m s v) :
    v = t.val (x0 + i) (y0 + j) m s ∧ ∀ i' j', i' < rw → j' < rh → t.get (x0 + i') (y0 + j') m s = some v →
      i' = i ∧ j' = j := by
  obtain ⟨hi, hj, hu⟩ := hu
  obtain ⟨⟨a, b, ha, hb, hab⟩, hmax⟩ := hm
  have hle := hmax i j _ hi hj (get_val_of hw (hin i j hi hj))
  have key : ∀ i' j', i' < rw → j' < rh → t.get (x0 + i') (y0 + j') m s = some v → i' = i ∧ j' = j := by
    intro i' j' hi' hj' hv
    by_contra hne
    have := hu i' j' hi' hj' hne
    rw [val_of_get hv] at this
    linarith
  obtain ⟨rfl, rfl⟩ := key a b ha hb hab
  exact ⟨(val_of_get hab).symm, key⟩

theorem near_window {inp : Shape} {rw rh sw sh ow oh : Nat} (hin : Inside rw rh sw sh ow oh inp) {X : ℝ → Vec}
    {t : ℝ} (ht : ∀ k ∈ range inp.elements, ∀ k' ∈ range inp.elements, X 0 k < X 0 k' → X t k < X t k')
    {ox oy m s i j : Nat} (h1 : ox < ow) (h2 : oy < oh) (hm : m < inp.maps) (hs : s < inp.samples)
    (hu : UniqueMax (tensorOf inp (X 0)) (ox * sw) (oy * sh) rw rh m s i j) :
    UniqueMax (tensorOf inp (X t)) (ox * sw) (oy * sh) rw rh m s i j := by
  obtain ⟨hi, hj, hu⟩ := hu
  have hr : ∀ i j, i < rw → j < rh → (tensorOf inp 0).InRange (ox * sw + i) (oy * sh + j) m s := by
    intro i j hi hj
    have e1 := hin.1 ox h1
    have e2 := hin.2 oy h2
    exact ⟨by rw [tensorOf_width]; omega, by rw [tensorOf_height]; omega, hm, hs⟩
  have hoff : ∀ i j, i < rw → j < rh → (tensorOf inp 0).offset (ox * sw + i) (oy * sh + j) m s ∈ range inp.elements := by
    intro i j hi hj
    rw [← elements_shape inp 0]
    exact Finset.mem_range.2 (offset_lt _ (hr i j hi hj))
  refine ⟨hi, hj, fun i' j' hi' hj' hne => ?_⟩
  have := hu i' j' hi' hj' hne
  rw [tensorOf_val inp (X 0) (hr i' j' hi' hj'), tensorOf_val inp (X 0) (hr i j hi hj)] at this
  rw [tensorOf_val inp (X t) (hr i' j' hi' hj'), tensorOf_val inp (X t) (hr i j hi hj)]
  exact ht _ (hoff i' j' hi' hj') _ (hoff i j hi hj) this

theorem sum_swap {A B C : Finset Nat} (F : Nat → Nat → Nat → ℝ) :
    ∑ y ∈ A, ∑ x ∈ B, ∑ o ∈ C, F y x o = ∑ o ∈ C, ∑ y ∈ A, ∑ x ∈ B, F y x o := by
  rw [Finset.sum_congr rfl fun y _ => Finset.sum_comm (s := B) (t := C) (f := fun x o => F y x o)]
  exact Finset.sum_comm

/-- Layers that choose for every output one input: exact where the choice does not change nearby. -/
theorem exact_selection {inp out : Shape} {fwd : Tensor ℝ → Option (Tensor ℝ)}
    {back : Bool → Tensor ℝ → Tensor ℝ → Tensor ℝ → Option (Tensor ℝ)} (hsm : out.samples = inp.samples)
    (hmp : out.maps = inp.maps) (x : Nat → Vec) (px py : Nat → Nat → Nat → Nat → Nat)
    (hp : ∀ ox oy m s, (tensorOf out 0).InRange ox oy m s →
      px ox oy m s < inp.width ∧ py ox oy m s < inp.height)
    (hfwd : ∀ X : ℝ → Vec, X 0 = x 0 → (∀ i < inp.elements, ContinuousAt (fun t => X t i) 0) →
      ∀ ox oy m s, (tensorOf out 0).InRange ox oy m s → ∀ᶠ t in nhds (0 : ℝ),
        vecOfOption (fwd (tensorOf inp (X t))) ((tensorOf out 0).offset ox oy m s) =
          (tensorOf inp (X t)).val (px ox oy m s) (py ox oy m s) m s)
    (hback : ∀ (e : Bool) (y d : Vec), ∃ w, back e (tensorOf inp (x 0)) (tensorOf out y) (tensorOf out d) = some w ∧
      Sh (tensorOf inp 0) w ∧ ∀ xx yy m s, (tensorOf inp 0).InRange xx yy m s →
        w.val xx yy m s = ∑ oy ∈ range out.height, ∑ ox ∈ range out.width,
          if px ox oy m s = xx ∧ py ox oy m s = yy then (tensorOf out d).val ox oy m s else 0)
    (pr : Bool) (p : Vec) :
    ExactAt (unarySem inp out fwd back) 0 [(inp.elements, pr)] 1 (fun _ => out.elements) p x := by
  intro P P' X X' _ hX _ hX' hstop
  have hX0 := hX' 0 inp.elements pr rfl
  have hr : ∀ ox oy m s, (tensorOf out 0).InRange ox oy m s →
      (tensorOf inp 0).InRange (px ox oy m s) (py ox oy m s) m s := by
    intro ox oy m s h
    obtain ⟨a, b⟩ := hp ox oy m s h
    obtain ⟨-, -, h3, h4⟩ := h
    exact ⟨a, b, by rw [tensorOf_maps, ← hmp]; exact h3, by rw [tensorOf_samples, ← hsm]; exact h4⟩
  have hder : ∀ ox oy m s, (tensorOf out 0).InRange ox oy m s →
      HasDerivAt (fun t => vecOfOption (fwd (tensorOf inp (X t 0))) ((tensorOf out 0).offset ox oy m s))
        ((tensorOf inp (X' 0)).val (px ox oy m s) (py ox oy m s) m s) 0 := by
    intro ox oy m s h
    refine HasDerivAt.congr_of_eventuallyEq (val_hasDerivAt inp (fun t => X t 0) (X' 0) hX0 (hr ox oy m s h)) ?_
    exact hfwd (fun t => X t 0) (by rw [hX]) (fun i hi => (hX0 i hi).continuousAt) ox oy m s h
  let Y' : Nat → Vec := fun _ i => deriv (fun t => vecOfOption (fwd (tensorOf inp (X t 0))) i) 0
  refine ⟨Y', 0, ?_, hasDerivAt_const _ _, ?_⟩
  · intro b hb i hi
    change i < out.elements at hi
    rw [← elements_shape out 0] at hi
    obtain ⟨ox, oy, m, s, hin, rfl⟩ := offset_surj _ hi
    exact (hder ox oy m s hin).differentiableAt.hasDerivAt
  · intro d
    obtain ⟨w, h1, h2, h3⟩ := hback pr ((unarySem inp out fwd back).forward p x 0) (d 0)
    refine ⟨fun _ => vecOf w, ?_, ?_⟩
    · intro j k hj
      match j with
      | 0 =>
        simp only [List.getElem?_cons_zero, Option.some.injEq, Prod.mk.injEq] at hj
        obtain ⟨-, rfl⟩ := hj
        show (back true _ _ _).map vecOf = _
        rw [h1]
        rfl
      | j + 1 => simp at hj
    · rw [sum_inputs _ _ X' hstop]
      show 0 + ∑ b ∈ range 1, pair out.elements (d b) (Y' b) =
        ∑ j ∈ range 1, pair ([(inp.elements, pr)].getD j (0, false)).1 (vecOf w) (X' j) + pair 0 _ _
      rw [Finset.sum_range_one, Finset.sum_range_one]
      show 0 + pair out.elements (d 0) (Y' 0) = pair inp.elements (vecOf w) (X' 0) + pair 0 _ _
      have z : ∀ a b : Vec, pair 0 a b = 0 := fun a b => by simp [pair]
      rw [z, zero_add, add_zero, ← dot_tensorOf' inp w (X' 0) h2]
      have hy : pair out.elements (d 0) (Y' 0) = dot (tensorOf out (Y' 0)) (tensorOf out (d 0)) := by
        rw [dot_tensorOf' out (tensorOf out (d 0)) (Y' 0) (tensorOf_sh _ _ _)]
        unfold pair
        refine Finset.sum_congr rfl fun i hi => ?_
        unfold vecOf
        rw [tensorOf_getD out (d 0) (Finset.mem_range.1 hi)]
      rw [hy]
      unfold dot
      simp only [tensorOf_samples, tensorOf_width, tensorOf_height, tensorOf_maps]
      rw [hsm, hmp]
      refine Finset.sum_congr rfl fun s hs => Finset.sum_congr rfl fun m hm => ?_
      have hm' := Finset.mem_range.1 hm
      have hs' := Finset.mem_range.1 hs
      have lhs : ∀ oy ∈ range out.height, ∀ ox ∈ range out.width,
          (tensorOf out (Y' 0)).val ox oy m s * (tensorOf out (d 0)).val ox oy m s =
          (tensorOf inp (X' 0)).val (px ox oy m s) (py ox oy m s) m s * (tensorOf out (d 0)).val ox oy m s := by
        intro oy hoy ox hox
        have hin : (tensorOf out 0).InRange ox oy m s := ⟨Finset.mem_range.1 hox, Finset.mem_range.1 hoy,
          by rw [tensorOf_maps, hmp]; exact hm', by rw [tensorOf_samples, hsm]; exact hs'⟩
        rw [tensorOf_val out (Y' 0) hin]
        congr 1
        exact (hder ox oy m s hin).deriv
      rw [Finset.sum_congr rfl fun oy hoy => Finset.sum_congr rfl (lhs oy hoy)]
      have rhs : ∀ yy ∈ range inp.height, ∀ xx ∈ range inp.width,
          (tensorOf inp (X' 0)).val xx yy m s * w.val xx yy m s =
          ∑ oy ∈ range out.height, ∑ ox ∈ range out.width, if px ox oy m s = xx ∧ py ox oy m s = yy then
            (tensorOf inp (X' 0)).val xx yy m s * (tensorOf out (d 0)).val ox oy m s else 0 := by
        intro yy hyy xx hxx
        rw [h3 xx yy m s ⟨Finset.mem_range.1 hxx, Finset.mem_range.1 hyy, hm', hs'⟩]
        simp only [Finset.mul_sum, mul_ite, mul_zero]
      rw [Finset.sum_congr rfl fun yy hyy => Finset.sum_congr rfl (rhs yy hyy)]
      rw [sum_swap]
      refine Finset.sum_congr rfl fun oy hoy => ?_
      rw [sum_swap]
      refine Finset.sum_congr rfl fun ox hox => ?_
      have hin : (tensorOf out 0).InRange ox oy m s := ⟨Finset.mem_range.1 hox, Finset.mem_range.1 hoy,
        by rw [tensorOf_maps, hmp]; exact hm', by rw [tensorOf_samples, hsm]; exact hs'⟩
      obtain ⟨a, b⟩ := hp ox oy m s hin
      rw [Finset.sum_eq_single_of_mem (py ox oy m s) (Finset.mem_range.2 b), Finset.sum_eq_single_of_mem (px ox oy m s)
        (Finset.mem_range.2 a), if_pos ⟨rfl, rfl⟩]
      · intro xx _ hne
        rw [if_neg fun h => hne h.1.symm]
      · intro yy _ hne
        exact Finset.sum_eq_zero fun xx _ => if_neg fun h => hne h.2.symm

theorem fill_wf {α : Type _} (a b c d : Nat) (v : α) : (Tensor.fill a b c d v).WF := by
  unfold WF Tensor.fill elements
  simp only [List.length_replicate]
  ring

theorem data_tensorOf {sh : Shape} {v : Vec} {a : ℝ} (h : a ∈ (tensorOf sh v).data) : ∃ k < sh.elements, a = v k := by
  unfold tensorOf at h
  obtain ⟨k, hk, rfl⟩ := List.mem_map.1 h
  refine ⟨k, ?_, rfl⟩
  rw [← elements_shape sh 0]
  exact List.mem_range.1 hk

theorem window_range {rw rh sw sh ow oh : Nat} {inp : Shape} (hin : Inside rw rh sw sh ow oh inp) (v : Vec)
    {ox oy m s : Nat} (h1 : ox < ow) (h2 : oy < oh) (hm : m < inp.maps) (hs : s < inp.samples) :
    ∀ i j, i < rw → j < rh → (tensorOf inp v).InRange (ox * sw + i) (oy * sh + j) m s := by
  intro i j hi hj
  have e1 := hin.1 ox h1
  have e2 := hin.2 oy h2
  exact ⟨by rw [tensorOf_width]; omega, by rw [tensorOf_height]; omega, hm, hs⟩

/-- C65, strided max-pooling layers back-propagate exactly at inputs without ties in a window (where the maximum
has no derivative), for images small enough for the recorded positions, see C40. -/
theorem C65_strided_pooling (lowest : ℝ) (rw rh sw sh ow oh : Nat) (inp : Shape) (hrw : 0 < rw) (hrh : 0 < rh)
    (hsw : 0 < sw) (hsh : 0 < sh) (hin : Inside rw rh sw sh ow oh inp) (hsize : inp.width * inp.height ≤ 2 ^ 24)
    (pr : Bool) (p : Vec) (x : Nat → Vec) (hlow : ∀ i < inp.elements, lowest < x 0 i)
    (hties : NoTies rw rh sw sh ow oh inp (x 0)) :
    ExactAt (poolSem lowest rw rh sw sh ow oh inp) 0 [(inp.elements, pr)] 1
      (fun _ => (⟨inp.samples, ow, oh, inp.maps⟩ : Shape).elements) p x := by
  have hch : ∀ ox oy m s, ∃ q : Nat × Nat, ox < ow → oy < oh → m < inp.maps → s < inp.samples →
      UniqueMax (tensorOf inp (x 0)) (ox * sw) (oy * sh) rw rh m s q.1 q.2 := by
    intro ox oy m s
    by_cases h : ox < ow ∧ oy < oh ∧ m < inp.maps ∧ s < inp.samples
    · obtain ⟨i, j, hu⟩ := hties ox oy m s h.1 h.2.1 h.2.2.1 h.2.2.2
      exact ⟨(i, j), fun _ _ _ _ => hu⟩
    · exact ⟨(0, 0), fun a b c d => absurd ⟨a, b, c, d⟩ h⟩
  choose q hq using hch
  refine exact_selection (inp := inp) (out := ⟨inp.samples, ow, oh, inp.maps⟩) rfl rfl x (fun ox oy m s => ox * sw + (q ox oy m s).1)
    (fun ox oy m s => oy * sh + (q ox oy m s).2) ?_ ?_ ?_ pr p
  · rintro ox oy m s ⟨h1, h2, h3, h4⟩
    obtain ⟨hi, hj, -⟩ := hq ox oy m s h1 h2 h3 h4
    have e1 := hin.1 ox h1
    have e2 := hin.2 oy h2
    omega
  · rintro X hX0 hX ox oy m s ⟨h1, h2, h3, h4⟩
    filter_upwards [near_order inp.elements X hX, near_above inp.elements lowest X hX (by rw [hX0]; exact hlow)]
      with t ht hab
    obtain ⟨mask', out', g1, g2, g3, g4⟩ := C40_forward (tensorOf inp (X t)) (buffer ⟨inp.samples, ow, oh, inp.maps⟩)
      (Tensor.fill inp.samples ow oh inp.maps 0) lowest rw rh sw sh hrw hrh (tensorOf_wf _ _) (fill_wf _ _ _ _ _)
      (tensorOf_wf _ _) ⟨rfl, rfl, rfl, rfl⟩ rfl rfl hin.1 hin.2 (by
        intro v hv
        obtain ⟨k, hk, rfl⟩ := data_tensorOf hv
        exact (hab k (Finset.mem_range.2 hk)).le)
    obtain ⟨v, hv, hmax⟩ := g4 ox oy m s ⟨h1, h2, h3, h4⟩
    rw [g1]
    show vecOf out' _ = _
    have hu := near_window hin ht h1 h2 h3 h4 (hX0 ▸ hq ox oy m s h1 h2 h3 h4)
    rw [← (regionMax_unique (tensorOf_wf _ _) (window_range hin _ h1 h2 h3 h4) hu hmax).1, ← val_of_get hv]
    unfold vecOf Tensor.val
    rw [g2.offset]
    rfl
  · intro e y d
    obtain ⟨mask', out', dx', g1, g2, g3, g4, px, py, g5, g6⟩ := C40_gradient_partial (tensorOf inp (x 0))
      (buffer ⟨inp.samples, ow, oh, inp.maps⟩) (Tensor.fill inp.samples ow oh inp.maps 0)
      (tensorOf ⟨inp.samples, ow, oh, inp.maps⟩ d) (buffer inp) lowest rw rh sw sh hsw hsh (tensorOf_wf _ _)
      (fill_wf _ _ _ _ _) (tensorOf_wf _ _) ⟨rfl, rfl, rfl, rfl⟩ rfl rfl hin.1 hin.2 (tensorOf_wf _ _)
      (tensorOf_wf _ _) (tensorOf_sh _ _ _) (tensorOf_sh _ _ _) hsize (by
        rintro ox oy m s ⟨h1, h2, h3, h4⟩
        have hr := window_range hin (x 0) h1 h2 h3 h4 0 0 hrw hrh
        refine ⟨0, 0, _, hrw, hrh, get_val_of (tensorOf_wf _ _) hr, ?_⟩
        rw [tensorOf_val inp (x 0) hr]
        refine hlow _ ?_
        rw [← elements_shape inp 0]
        exact offset_lt _ hr)
    refine ⟨dx', ?_, g3, ?_⟩
    · show (Pooling.advForward _ _ _ _ _ _ _).bind _ = _
      rw [g1]
      exact g2
    · intro xx yy m s hr
      rw [val_of_get (g6 xx yy m s hr)]
      refine Finset.sum_congr rfl fun oy hoy => Finset.sum_congr rfl fun ox hox => ?_
      obtain ⟨-, -, h3, h4⟩ := hr
      have h1 : ox < ow := Finset.mem_range.1 hox
      have h2 : oy < oh := Finset.mem_range.1 hoy
      obtain ⟨⟨i, j, hi, hj, e1, e2⟩, v, hv, hmax⟩ := g5 ox oy m s ⟨h1, h2, h3, h4⟩
      rw [e1, e2] at hv
      obtain ⟨rfl, rfl⟩ := (regionMax_unique (tensorOf_wf _ _) (window_range hin _ h1 h2 h3 h4)
        (hq ox oy m s h1 h2 h3 h4) hmax).2 i j hi hj hv
      rw [e1, e2]

/-- C65, max-pooling layers back-propagate exactly at inputs without ties in a region. -/
theorem C65_max_pooling (lowest : ℝ) (rw rh ow oh : Nat) (inp : Shape) (hrw : 0 < rw) (hrh : 0 < rh)
    (hw : inp.width = ow * rw) (hh : inp.height = oh * rh) (hsize : inp.width ≤ 2 ^ 24 ∧ inp.height ≤ 2 ^ 24)
    (pr : Bool) (p : Vec) (x : Nat → Vec) (hlow : ∀ i < inp.elements, lowest < x 0 i)
    (hties : NoTies rw rh rw rh ow oh inp (x 0)) :
    ExactAt (maxPoolSem lowest rw rh ow oh inp) 0 [(inp.elements, pr)] 1
      (fun _ => (⟨inp.samples, ow, oh, inp.maps⟩ : Shape).elements) p x := by
  have hfit : ∀ {n k o : Nat}, o < n → o * k + k ≤ n * k := by
    intro n k o h
    calc o * k + k = (o + 1) * k := by rw [Nat.add_mul, Nat.one_mul]
      _ ≤ n * k := Nat.mul_le_mul_right _ h
  have hin : Inside rw rh rw rh ow oh inp :=
    ⟨fun ox h => by rw [hw]; exact hfit h, fun oy h => by rw [hh]; exact hfit h⟩
  have hch : ∀ ox oy m s, ∃ q : Nat × Nat, ox < ow → oy < oh → m < inp.maps → s < inp.samples →
      UniqueMax (tensorOf inp (x 0)) (ox * rw) (oy * rh) rw rh m s q.1 q.2 := by
    intro ox oy m s
    by_cases h : ox < ow ∧ oy < oh ∧ m < inp.maps ∧ s < inp.samples
    · obtain ⟨i, j, hu⟩ := hties ox oy m s h.1 h.2.1 h.2.2.1 h.2.2.2
      exact ⟨(i, j), fun _ _ _ _ => hu⟩
    · exact ⟨(0, 0), fun a b c d => absurd ⟨a, b, c, d⟩ h⟩
  choose q hq using hch
  refine exact_selection (inp := inp) (out := ⟨inp.samples, ow, oh, inp.maps⟩) rfl rfl x (fun ox oy m s => ox * rw + (q ox oy m s).1)
    (fun ox oy m s => oy * rh + (q ox oy m s).2) ?_ ?_ ?_ pr p
  · rintro ox oy m s ⟨h1, h2, h3, h4⟩
    obtain ⟨hi, hj, -⟩ := hq ox oy m s h1 h2 h3 h4
    have e1 := hin.1 ox h1
    have e2 := hin.2 oy h2
    omega
  · rintro X hX0 hX ox oy m s ⟨h1, h2, h3, h4⟩
    filter_upwards [near_order inp.elements X hX, near_above inp.elements lowest X hX (by rw [hX0]; exact hlow)]
      with t ht hab
    obtain ⟨mx', my', out', g1, g2, g3, g4⟩ := C39_forward (tensorOf inp (X t))
      (buffer ⟨inp.samples, ow, oh, inp.maps⟩) (Tensor.fill inp.samples ow oh inp.maps 0)
      (Tensor.fill inp.samples ow oh inp.maps 0) lowest rw rh hrw hrh (tensorOf_wf _ _) (fill_wf _ _ _ _ _)
      (fill_wf _ _ _ _ _) (tensorOf_wf _ _) ⟨rfl, rfl, rfl, rfl⟩ ⟨rfl, rfl, rfl, rfl⟩ rfl rfl hw hh (by
        intro v hv
        obtain ⟨k, hk, rfl⟩ := data_tensorOf hv
        exact (hab k (Finset.mem_range.2 hk)).le)
    obtain ⟨v, hv, hmax⟩ := g4 ox oy m s ⟨h1, h2, h3, h4⟩
    rw [g1]
    show vecOf out' _ = _
    have hu := near_window hin ht h1 h2 h3 h4 (hX0 ▸ hq ox oy m s h1 h2 h3 h4)
    rw [← (regionMax_unique (tensorOf_wf _ _) (window_range hin _ h1 h2 h3 h4) hu hmax).1, ← val_of_get hv]
    unfold vecOf Tensor.val
    rw [g2.offset]
    rfl
  · intro e y d
    obtain ⟨mx', my', out', dx', g1, g2, g3, g4, px, py, g5, g6⟩ := C39_gradient_partial (tensorOf inp (x 0))
      (buffer ⟨inp.samples, ow, oh, inp.maps⟩) (Tensor.fill inp.samples ow oh inp.maps 0)
      (Tensor.fill inp.samples ow oh inp.maps 0)
      (tensorOf ⟨inp.samples, ow, oh, inp.maps⟩ d) (buffer inp) lowest rw rh (tensorOf_wf _ _)
      (fill_wf _ _ _ _ _) (fill_wf _ _ _ _ _) (tensorOf_wf _ _) ⟨rfl, rfl, rfl, rfl⟩ ⟨rfl, rfl, rfl, rfl⟩ rfl rfl
      hw hh (tensorOf_wf _ _) (tensorOf_wf _ _) (tensorOf_sh _ _ _) (tensorOf_sh _ _ _) hsize (by
        rintro ox oy m s ⟨h1, h2, h3, h4⟩
        have hr := window_range hin (x 0) h1 h2 h3 h4 0 0 hrw hrh
        refine ⟨0, 0, _, hrw, hrh, get_val_of (tensorOf_wf _ _) hr, ?_⟩
        rw [tensorOf_val inp (x 0) hr]
        refine hlow _ ?_
        rw [← elements_shape inp 0]
        exact offset_lt _ hr)
    refine ⟨dx', ?_, g3, ?_⟩
    · show (Pooling.forward _ _ _ _ _).bind _ = _
      rw [g1]
      exact g2
    · intro xx yy m s hr
      obtain ⟨h1, h2, h3, h4⟩ := hr
      have hpos : ∀ ox oy, ox < ow → oy < oh → px ox oy m s = ox * rw + (q ox oy m s).1 ∧
          py ox oy m s = oy * rh + (q ox oy m s).2 ∧
          dx'.get (px ox oy m s) (py ox oy m s) m s = (tensorOf ⟨inp.samples, ow, oh, inp.maps⟩ d).get ox oy m s := by
        intro ox oy h1 h2
        obtain ⟨⟨i, j, hi, hj, e1, e2⟩, ⟨v, hv, hmax⟩, hd⟩ := g5 ox oy m s ⟨h1, h2, h3, h4⟩
        have hv' := hv
        rw [e1, e2] at hv'
        obtain ⟨rfl, rfl⟩ := (regionMax_unique (tensorOf_wf _ _) (window_range hin _ h1 h2 h3 h4)
          (hq ox oy m s h1 h2 h3 h4) hmax).2 i j hi hj hv'
        exact ⟨e1, e2, hd⟩
      have hsep : ∀ {k a b i j : Nat}, i < k → j < k → a * k + i = b * k + j → a = b := by
        intro k a b i j hi hj h
        have := congrArg (· / k) h
        simp only [Nat.mul_comm _ k, Nat.mul_add_div (show 0 < k by omega), Nat.div_eq_of_lt hi,
          Nat.div_eq_of_lt hj] at this
        omega
      show _ = ∑ oy ∈ range oh, ∑ ox ∈ range ow, _
      by_cases hex : ∃ ox oy, ox < ow ∧ oy < oh ∧ px ox oy m s = xx ∧ py ox oy m s = yy
      · obtain ⟨ox, oy, k1, k2, e1, e2⟩ := hex
        obtain ⟨a1, a2, a3⟩ := hpos ox oy k1 k2
        obtain ⟨u1, u2, -⟩ := hq ox oy m s k1 k2 h3 h4
        have hval : dx'.val xx yy m s = (tensorOf ⟨inp.samples, ow, oh, inp.maps⟩ d).val ox oy m s := by
          rw [e1, e2, get_val_of (tensorOf_wf _ _) (show (tensorOf ⟨inp.samples, ow, oh, inp.maps⟩ d).InRange ox oy m s from
            ⟨k1, k2, h3, h4⟩)] at a3
          exact val_of_get a3
        rw [hval, Finset.sum_eq_single_of_mem oy (Finset.mem_range.2 k2), Finset.sum_eq_single_of_mem ox
          (Finset.mem_range.2 k1), if_pos ⟨by rw [← e1, a1], by rw [← e2, a2]⟩]
        · intro o ho hne
          refine if_neg fun h => hne ?_
          obtain ⟨w1, w2, -⟩ := hq o oy m s (Finset.mem_range.1 ho) k2 h3 h4
          exact hsep w1 u1 (h.1.trans (e1.symm.trans a1))
        · intro o ho hne
          refine Finset.sum_eq_zero fun o' ho' => if_neg fun h => hne ?_
          obtain ⟨w1, w2, -⟩ := hq o' o m s (Finset.mem_range.1 ho') (Finset.mem_range.1 ho) h3 h4
          exact hsep w2 u2 (h.2.trans (e2.symm.trans a2))
      · have hz := g6 xx yy m s ⟨h1, h2, h3, h4⟩ (by
          rintro ox oy ⟨k1, k2, -, -⟩ ⟨e1, e2⟩
          exact hex ⟨ox, oy, k1, k2, e1, e2⟩)
        rw [val_of_get hz]
        refine (Finset.sum_eq_zero fun oy hoy => Finset.sum_eq_zero fun ox hox => if_neg ?_).symm
        rintro ⟨e1, e2⟩
        obtain ⟨a1, a2, -⟩ := hpos ox oy (Finset.mem_range.1 hox) (Finset.mem_range.1 hoy)
        exact hex ⟨ox, oy, Finset.mem_range.1 hox, Finset.mem_range.1 hoy, a1.trans e1, a2.trans e2⟩

end CN24.Net
