import Verif.Proof.NetChain
import Verif.Props.Rounding
import Verif.Proof.RoundingDown
import Verif.Props.Tensor
import Verif.Props.NetEval

/-
C98: how far the output of a whole network in single precision is from that of the same network in exact arithmetic.
-/

namespace CN24.RoundingNet
open CN24 CN24.Tensor CN24.TensorMath CN24.Convolution CN24.Props CN24.Counting CN24.Rounding CN24.NetConfig CN24.NetEval

/-- The layers of a network that is a chain: convolutions without dropout, rectifiers, poolings, the border, the enlargement, the means of blocks, and
the two smooth activations. -/
inductive Plain where
  | conv (p : Params) (draw : Nat)
  | relu
  | maxPool (kx ky : Nat)
  | strided (kx ky sx sy : Nat)
  | border (bx bY : Nat)
  | enlarge (fx fy : Nat)
  | down (kx ky : Nat)
  | sigmoid
  | tanh

/-- The layer as the factory makes it. -/
def Plain.layer {D : Type _} [Zero D] [One D] : Plain → NetConfig.Layer D
  | .conv p draw => .conv p draw 0 1
  | .relu => .relu
  | .maxPool kx ky => .maxPool kx ky
  | .strided kx ky sx sy => .advMaxPool kx ky sx sy
  | .border bx bY => .resize bx bY
  | .enlarge fx fy => .upscale fx fy
  | .down kx ky => .downSample kx ky
  | .sigmoid => .sigmoid
  | .tanh => .tanh

/-- The numbers of the exact network are at most `size`, those of the computed one at most `error` away from them. -/
structure Bound where
  size : ℚ
  error : ℚ

/-- The bound behind a layer, from the bound before it.  `W` and `B` bound the sums of the absolute weights and the biases of the
convolutions, `δ` the error of the smooth activations. -/
def Plain.bound (W B : Nat → ℚ) (δ : ℚ) (maps : Nat) (b : Bound) : Plain → Bound
  | .conv p draw => ⟨B draw + W draw * b.size, W draw * b.error + (products p maps + 4) / 2 ^ 23 * (B draw + W draw * (b.size + b.error)) +
      (products p maps + 4) / 2 ^ 149⟩
  | .relu | .maxPool .. | .strided .. | .border .. => b
  | .enlarge .. => ⟨b.size, b.error + (b.size + b.error) / 2 ^ 24 + 1 / 2 ^ 150⟩
  | .down kx ky => ⟨b.size, b.error + (kx * ky + 3) / 2 ^ 23 * (b.size + b.error) + 1 / 2 ^ 150⟩
  | .sigmoid | .tanh => ⟨1, b.error + δ⟩

/-- The requirements of a layer for inputs of shape `s` with the bound `b`: parameters of the right sizes and within the bounds,
few enough products and pixels of a block, windows that fit, and numbers that are not below the smallest one in front of a pooling. -/
def Plain.Fits (env : Env Single) (W B : Nat → ℚ) (s : Shape) (b : Bound) : Plain → Prop
  | .conv p draw => 0 < p.group ∧ p.group ∣ p.outputMaps ∧
      (env.parameters draw).weights.Is p.outputMaps p.kernelWidth p.kernelHeight (s.maps / p.group) ∧
      (env.parameters draw).bias.Is 1 p.outputMaps 1 1 ∧ products p s.maps + 4 ≤ 2 ^ 23 ∧ 0 ≤ W draw ∧ 0 ≤ B draw ∧
      (∀ om < p.outputMaps, weightSum p s.maps (valueTensor (env.parameters draw).weights) om ≤ W draw) ∧
      ∀ om < p.outputMaps, |((env.parameters draw).bias.val om 0 0 0).value| ≤ B draw
  | .maxPool kx ky => 0 < kx ∧ 0 < ky ∧ b.size + b.error ≤ -env.lowest.value
  | .strided kx ky _ _ => 0 < kx ∧ 0 < ky ∧ kx ≤ s.width ∧ ky ≤ s.height ∧ b.size + b.error ≤ -env.lowest.value
  | .enlarge fx fy => 0 < fx ∧ 0 < fy
  | .down kx ky => 0 < kx ∧ 0 < ky ∧ kx * ky ≤ 2 ^ 23
  | .relu | .border .. | .sigmoid | .tanh => True

/-- The layers accept their inputs one after the other and meet their requirements, and the last output has shape `o` and bound
`c`. -/
def Runs (env : Env Single) (W B : Nat → ℚ) (δ : ℚ) : List Plain → Shape → Bound → Shape → Bound → Prop
  | [], s, b, o, c => o = s ∧ c = b
  | l :: ls, s, b, o, c => l.Fits env W B s b ∧ ∃ s', (l.layer : NetConfig.Layer ℚ).outputs [s] = .done [s'] ∧
      Runs env W B δ ls s' (l.bound W B δ s.maps b) o c

/-- The network with the same parameters in exact arithmetic. -/
def exactEnv (env : Env Single) (exp : ℚ → ℚ) : Env ℚ :=
  ⟨exp, env.lowest.value, fun draw => ⟨valueTensor (env.parameters draw).weights, valueTensor (env.parameters draw).bias⟩⟩

/-- The smooth activations are computed with an error of `δ`, and do not enlarge differences. -/
structure Accurate (env : Env Single) (exp : ℚ → ℚ) (δ : ℚ) : Prop where
  sigmoid : ∀ v x, |(Activations.sigmoid env.exp v).value - Activations.sigmoid exp x| ≤ |v.value - x| + δ
  tanh : ∀ v x, |(Activations.tanh env.exp v).value - Activations.tanh exp x| ≤ |v.value - x| + δ
  sigmoid_le : ∀ x, |Activations.sigmoid exp x| ≤ 1
  tanh_le : ∀ x, |Activations.tanh exp x| ≤ 1

/-- The computed tensor and the exact one, of shape `s` and within the bound. -/
structure Close (s : Shape) (b : Bound) (t : Tensor Single) (x : Tensor ℚ) : Prop where
  isT : t.Is s.samples s.width s.height s.maps
  isX : x.Is s.samples s.width s.height s.maps
  size0 : 0 ≤ b.size
  error0 : 0 ≤ b.error
  near : ∀ i j m k, x.InRange i j m k → |(t.val i j m k).value - x.val i j m k| ≤ b.error
  size : ∀ i j m k, x.InRange i j m k → |x.val i j m k| ≤ b.size

theorem Close.sh {s : Shape} {b : Bound} {t : Tensor Single} {x : Tensor ℚ} (h : Close s b t x) : Sh t x := by
  obtain ⟨⟨a1, a2, a3, a4, -⟩, ⟨b1, b2, b3, b4, -⟩, -⟩ := h
  exact ⟨a1.trans b1.symm, a2.trans b2.symm, a3.trans b3.symm, a4.trans b4.symm⟩

theorem Close.toNear {s : Shape} {b : Bound} {t : Tensor Single} {x : Tensor ℚ} (h : Close s b t x) : Near b.error t x :=
  ⟨h.sh, h.isX.2.2.2.2, h.near⟩

theorem outputs_layer {l : Plain} {s : Shape} {D : Type _} [Zero D] [One D] :
    (l.layer : NetConfig.Layer D).outputs [s] = (l.layer : NetConfig.Layer ℚ).outputs [s] := by
  cases l <;> rfl

/-- What is claimed of one layer. -/
def Step (env : Env Single) (exp : ℚ → ℚ) (mode : Mode Single) (mode' : Mode ℚ) (l : Plain) (s' : Shape) (b' : Bound)
    (t : Tensor Single) (x : Tensor ℚ) : Prop :=
  ∃ u y, eval env mode l.layer t = .done u ∧ eval (exactEnv env exp) mode' l.layer x = .done y ∧ Close s' b' u y

theorem close_of {s : Shape} {b : Bound} {u : Tensor Single} {y : Tensor ℚ} (h1 : u.Is s.samples s.width s.height s.maps)
    (h2 : y.Is s.samples s.width s.height s.maps) (h3 : 0 ≤ b.size) (h4 : 0 ≤ b.error)
    (h : ∀ i j m k, i < s.width → j < s.height → m < s.maps → k < s.samples →
      |(u.val i j m k).value - y.val i j m k| ≤ b.error ∧ |y.val i j m k| ≤ b.size) : Close s b u y := by
  refine ⟨h1, h2, h3, h4, fun i j m k hin => ?_, fun i j m k hin => ?_⟩
  · obtain ⟨i1, i2, i3, i4⟩ := (inRange_of_is h2).1 hin
    exact (h i j m k i1 i2 i3 i4).1
  · obtain ⟨i1, i2, i3, i4⟩ := (inRange_of_is h2).1 hin
    exact (h i j m k i1 i2 i3 i4).2

/-- Elementwise layers. -/
theorem act_eval {R : Type _} [Zero R] [One R] [Add R] [Sub R] [Neg R] [Mul R] [Div R] [NatCast R] [LT R] [DecidableLT R] [DecidableEq R]
    (env : Env R) (mode : Mode R) (l : NetConfig.Layer R) (f : R → R) (hl : ∀ s, l.outputs [s] = .done [s])
    (hf : ∀ t o, forward env mode l t o = .ofOption
      (Activations.elementwise t.elements (fun e => (rd t.data e).map f) (blank o mode.junk)))
    {t : Tensor R} {s : Shape} (ht : t.Is s.samples s.width s.height s.maps) :
    ∃ u, eval env mode l t = .done u ∧ u.Is s.samples s.width s.height s.maps ∧
      ∀ i j m k, i < s.width → j < s.height → m < s.maps → k < s.samples → u.val i j m k = f (t.val i j m k) := by
  rw [eval_of_outputs ht (hl _), hf]
  have hb := blank_is s mode.junk
  have hsh : Sh t (blank s mode.junk) := by
    obtain ⟨b1, b2, b3, b4, -⟩ := hb
    obtain ⟨h1, h2, h3, h4, -⟩ := ht
    exact ⟨h1.trans b1.symm, h2.trans b2.symm, h3.trans b3.symm, h4.trans b4.symm⟩
  obtain ⟨u, e, g1, g2, g3⟩ := Activations.elementwise_map (f := f) hb.2.2.2.2 ht.2.2.2.2 hsh
  refine ⟨u, by rw [show (⟨s.samples, s.width, s.height, s.maps⟩ : Shape) = s from rfl, e]; rfl, is_of_sh hb g1 g2, ?_⟩
  intro x y k q hx hy hk hs
  have hin : t.InRange x y k q := (inRange_of_is ht).2 ⟨hx, hy, hk, hs⟩
  have := g3 x y k q ((inRange_of_is hb).2 ⟨hx, hy, hk, hs⟩)
  rw [get_eq_val ht.2.2.2.2 hin] at this
  exact val_of_get this

theorem relu_value (v : Single) : (Activations.relu v).value = max 0 v.value := by
  unfold Activations.relu
  split
  · rename_i h
    rw [← Flt.value_lt, Flt.value_zero] at h
    exact (max_eq_right h.le).symm
  · rename_i h
    rw [← Flt.value_lt, Flt.value_zero] at h
    rw [Flt.value_zero]
    exact (max_eq_left (not_lt.1 h)).symm

theorem relu_exact (x : ℚ) : Activations.relu x = max 0 x := by
  unfold Activations.relu
  split
  · rename_i h
    exact (max_eq_right h.le).symm
  · rename_i h
    exact (max_eq_left (not_lt.1 h)).symm

section steps
variable {env : Env Single} {exp : ℚ → ℚ} {mode : Mode Single} {mode' : Mode ℚ} {W B : Nat → ℚ} {δ : ℚ} {s s' : Shape} {b : Bound}
  {t : Tensor Single} {x : Tensor ℚ}

theorem relu_step (h : Close s b t x) : Step env exp mode mode' .relu s b t x := by
  obtain ⟨u, u1, u2, u3⟩ := act_eval env mode .relu Activations.relu (fun _ => rfl) (fun _ _ => rfl) h.isT
  obtain ⟨y, y1, y2, y3⟩ := act_eval (exactEnv env exp) mode' .relu Activations.relu (fun _ => rfl) (fun _ _ => rfl) h.isX
  refine ⟨u, y, u1, y1, close_of u2 y2 h.size0 h.error0 fun i j m k hi hj hm hk => ?_⟩
  have hin := (inRange_of_is h.isX).2 ⟨hi, hj, hm, hk⟩
  have hn := h.near i j m k hin
  have hz := h.size i j m k hin
  rw [u3 i j m k hi hj hm hk, y3 i j m k hi hj hm hk, relu_value, relu_exact]
  constructor
  · exact (abs_max_sub_max_le_max _ _ _ _).trans (by rw [sub_self, abs_zero]; exact max_le h.error0 hn)
  · rw [abs_of_nonneg (le_max_left _ _)]
    exact max_le h.size0 ((le_abs_self _).trans hz)

theorem smooth_step (hδ : 0 ≤ δ) {l : Plain} {f : Single → Single} {g : ℚ → ℚ}
    (h : Close s b t x) (hl : ∀ (D : Type) [Zero D] [One D] (s : Shape), (l.layer : NetConfig.Layer D).outputs [s] = .done [s])
    (hf : ∀ t o, forward env mode l.layer t o = .ofOption
      (Activations.elementwise t.elements (fun e => (rd t.data e).map f) (blank o mode.junk)))
    (hg : ∀ t o, forward (exactEnv env exp) mode' l.layer t o = .ofOption
      (Activations.elementwise t.elements (fun e => (rd t.data e).map g) (blank o mode'.junk)))
    (ha : ∀ v x, |(f v).value - g x| ≤ |v.value - x| + δ) (hb : ∀ x, |g x| ≤ 1) :
    Step env exp mode mode' l s ⟨1, b.error + δ⟩ t x := by
  obtain ⟨u, u1, u2, u3⟩ := act_eval env mode l.layer f (hl Single) hf h.isT
  obtain ⟨y, y1, y2, y3⟩ := act_eval (exactEnv env exp) mode' l.layer g (hl ℚ) hg h.isX
  refine ⟨u, y, u1, y1, close_of u2 y2 zero_le_one (add_nonneg h.error0 hδ) fun i j m k hi hj hm hk => ?_⟩
  have hin := (inRange_of_is h.isX).2 ⟨hi, hj, hm, hk⟩
  have hn := h.near i j m k hin
  rw [u3 i j m k hi hj hm hk, y3 i j m k hi hj hm hk]
  exact ⟨(ha _ _).trans (by dsimp only; linarith), hb _⟩

theorem border_step (bx bY : Nat) (h : Close s b t x) :
    Step env exp mode mode' (.border bx bY) (Layers.resizeCreate bx bY s) b t x := by
  obtain ⟨u, u1, u2, u3⟩ := resize_eval env mode bx bY h.isT
  obtain ⟨y, y1, y2, y3⟩ := resize_eval (exactEnv env exp) mode' bx bY h.isX
  refine ⟨u, y, u1, y1, close_of u2 y2 h.size0 h.error0 fun i j m k hi hj hm hk => ?_⟩
  have hm' : m < x.maps := by rw [h.isX.2.2.2.1]; exact hm
  have hk' : k < x.samples := by rw [h.isX.1]; exact hk
  rw [u3 i j m k hi hj hm hk, y3 i j m k hi hj hm hk]
  constructor
  · have := pixel_near h.error0 h.toNear (i := (i : Int) - (bx / 2 : Nat)) (j := (j : Int) - (bY / 2 : Nat)) hm' hk'
    rw [← padded_eq_pixel (valueTensor t), padded_value] at this
    have e : padded t ((i : Int) - (bx / 2 : Nat)) ((j : Int) - (bY / 2 : Nat)) m k =
        Props.pixel t ((i : Int) - (bx / 2 : Nat)) ((j : Int) - (bY / 2 : Nat)) m k := by
      unfold padded Props.pixel; simp only [and_assoc]
    rw [← e]
    exact this
  · exact pixel_bound h.size0 h.size hm' hk'

/-- The enlargement in any arithmetic. -/
theorem enlarge_eval' {R : Type _} [Zero R] [One R] [Add R] [Sub R] [Neg R] [Mul R] [Div R] [NatCast R] [LT R] [DecidableLT R] [DecidableEq R]
    (env : Env R) (mode : Mode R) {fx fy : Nat} (px : 0 < fx) (py : 0 < fy) {t : Tensor R} {ss w h m : Nat} (ht : t.Is ss w h m) :
    ∃ o, eval env mode (.upscale fx fy) t = .done o ∧ o.Is ss (w * fx) (h * fy) m ∧
      ∀ x y k s, x < w * fx → y < h * fy → k < m → s < ss → x / fx < w ∧ y / fy < h ∧
        o.val x y k s = t.val (x / fx) (y / fy) k s * 1 := by
  obtain ⟨h1, h2, h3, h4, h5⟩ := ht
  have ht : t.Is ss w h m := ⟨h1, h2, h3, h4, h5⟩
  rw [eval_of_outputs ht (o := ⟨ss, w * fx, h * fy, m⟩) rfl]
  have hb := blank_is (⟨ss, w * fx, h * fy, m⟩ : Shape) mode.junk
  obtain ⟨o, e, g1, g2, g3⟩ := TensorMath.up_spec (factor := (1 : R)) (rw := fx) (rh := fy) h5 hb.2.2.2.2
    (by rw [h2]; exact Nat.mul_comm ..) (by rw [h3]; exact Nat.mul_comm ..) (by rw [h4]; rfl) (by rw [h1]; rfl)
  refine ⟨o, by unfold forward Layers.upscaleForward; simp only [e]; rfl, is_of_sh hb g1 g2, ?_⟩
  intro x y k s hx hy hk hs
  have hx' : x / fx < w := Nat.div_lt_of_lt_mul (by rw [Nat.mul_comm]; exact hx)
  have hy' : y / fy < h := Nat.div_lt_of_lt_mul (by rw [Nat.mul_comm]; exact hy)
  have := g3 (x / fx) (y / fy) k s (x % fx) (y % fy) ((inRange_of_is ht).2 ⟨hx', hy', hk, hs⟩)
    (Nat.mod_lt _ px) (Nat.mod_lt _ py)
  rw [Nat.div_add_mod, Nat.div_add_mod] at this
  exact ⟨hx', hy', val_of_get this⟩

theorem single_one_value : (1 : Single).value = 1 := by
  show ((2 ^ 149 : Int) : ℚ) / 2 ^ 149 = 1
  norm_num

theorem enlarge_step {fx fy : Nat} (px : 0 < fx) (py : 0 < fy) (h : Close s b t x) :
    Step env exp mode mode' (.enlarge fx fy) ⟨s.samples, s.width * fx, s.height * fy, s.maps⟩
      ⟨b.size, b.error + (b.size + b.error) / 2 ^ 24 + 1 / 2 ^ 150⟩ t x := by
  obtain ⟨u, u1, u2, u3⟩ := enlarge_eval' env mode px py h.isT
  obtain ⟨y, y1, y2, y3⟩ := enlarge_eval' (exactEnv env exp) mode' px py h.isX
  have e0 := h.error0
  have s0 := h.size0
  refine ⟨u, y, u1, y1, close_of u2 y2 h.size0 (by dsimp only; positivity) fun i j m k hi hj hm hk => ?_⟩
  obtain ⟨i1, j1, e1⟩ := u3 i j m k hi hj hm hk
  obtain ⟨-, -, e2⟩ := y3 i j m k hi hj hm hk
  have hin := (inRange_of_is h.isX).2 ⟨i1, j1, hm, hk⟩
  have hn := h.near _ _ m k hin
  have hz := h.size _ _ m k hin
  rw [e1, e2, mul_one]
  refine ⟨?_, hz⟩
  have hr := Flt.mul_err (p := 24) (e := 149) (by norm_num) (t.val (i / fx) (j / fy) m k) 1
  rw [single_one_value, mul_one] at hr
  unfold Flt.ulp Flt.tiny at hr
  generalize (t.val (i / fx) (j / fy) m k * 1).value = c at *
  generalize (t.val (i / fx) (j / fy) m k).value = v at *
  generalize x.val (i / fx) (j / fy) m k = w at *
  have hv : |v| ≤ b.size + b.error := by
    have := abs_add_le (v - w) w
    rw [sub_add_cancel] at this
    linarith
  have h3 := abs_add_le (c - v) (v - w)
  rw [sub_add_sub_cancel] at h3
  dsimp only
  have h4 : 1 / 2 ^ 24 * |v| ≤ (b.size + b.error) / 2 ^ 24 := by
    rw [one_div_mul_eq_div]
    gcongr
  norm_num at h4 hr ⊢
  linarith

/-- The means of blocks in any arithmetic. -/
theorem down_eval' {R : Type _} [Zero R] [One R] [Add R] [Sub R] [Neg R] [Mul R] [Div R] [NatCast R] [LT R] [DecidableLT R] [DecidableEq R]
    (env : Env R) (mode : Mode R) {kx ky ow oh : Nat} {t : Tensor R} {s : Shape} (ht : t.Is s.samples s.width s.height s.maps)
    (hw : s.width = ow * kx) (hh : s.height = oh * ky)
    (ho : (NetConfig.Layer.downSample kx ky : NetConfig.Layer R).outputs [s] = .done [⟨s.samples, ow, oh, s.maps⟩]) :
    ∃ o, eval env mode (.downSample kx ky) t = .done o ∧ o.Is s.samples ow oh s.maps ∧
      ∀ x y m k, x < ow → y < oh → m < s.maps → k < s.samples →
        o.val x y m k = regionUp (fun ry rx => t.val (kx * x + rx) (ky * y + ry) m k) ky kx * (1 / ((kx : R) * (ky : R))) := by
  rw [eval_of_outputs ht ho]
  have hb := blank_is (⟨s.samples, ow, oh, s.maps⟩ : Shape) mode.junk
  obtain ⟨h1, h2, h3, h4, h5⟩ := ht
  obtain ⟨o, e, g1, g2, g3⟩ := down_any (factor := 1 / ((kx : R) * (ky : R))) (rw := kx) (rh := ky)
    h5 hb.2.2.2.2 (by rw [h2, hw, Nat.mul_comm]; rfl) (by rw [h3, hh, Nat.mul_comm]; rfl) (by rw [h4]; rfl) (by rw [h1]; rfl)
  refine ⟨o, by unfold forward Layers.downsampleForward; simp only [e]; rfl, is_of_sh hb g1 g2, ?_⟩
  intro x y m k hx hy hm hk
  exact val_of_get (g3 x y m k ((inRange_of_is hb).2 ⟨hx, hy, hm, hk⟩))

/-- In exact arithmetic the order of the sum does not matter. -/
theorem regionUp_sum (v : Nat → Nat → ℚ) (rh rw : Nat) :
    regionUp v rh rw = ∑ j ∈ Finset.range rh, ∑ i ∈ Finset.range rw, v j i := by
  have h1 : ∀ (v : Nat → ℚ) (n : Nat) (a : ℚ), addUp v n a = a + ∑ i ∈ Finset.range n, v i := by
    intro v n a
    induction n with
    | zero => simp [addUp]
    | succ n ih =>
      unfold addUp at ih ⊢
      rw [List.range_succ, List.foldl_append, ih, Finset.sum_range_succ, ← add_assoc]
      rfl
  induction rh with
  | zero => rfl
  | succ n ih =>
    unfold regionUp at ih ⊢
    rw [List.range_succ, List.foldl_append, ih, Finset.sum_range_succ]
    exact h1 _ _ _

theorem down_step {kx ky : Nat} (hx : 0 < kx) (hy : 0 < ky) (hN : kx * ky ≤ 2 ^ 23) (h : Close s b t x)
    (ho : (Plain.layer (.down kx ky) : NetConfig.Layer ℚ).outputs [s] = .done [s']) :
    Step env exp mode mode' (.down kx ky) s' ((Plain.down kx ky).bound W B δ s.maps b) t x := by
  have ho'' := ho
  unfold Plain.layer NetConfig.Layer.outputs at ho''
  obtain ⟨r, e1, e2⟩ := bind_eq_done ho''
  cases r with
  | none => cases e2
  | some r =>
    obtain ⟨ow, oh⟩ := r
    have e2 := (List.cons.inj (Outcome.done.inj e2)).1
    subst e2
    obtain ⟨hw, hh⟩ := ((C36_max_pooling kx ky s.width s.height hx hy).1 ow oh).1 e1
    obtain ⟨u, u1, u2, u3⟩ := down_eval' env mode h.isT hw hh
      (show (NetConfig.Layer.downSample kx ky : NetConfig.Layer Single).outputs [s] = _ from ho)
    obtain ⟨y, y1, y2, y3⟩ := down_eval' (exactEnv env exp) mode' h.isX hw hh ho
    have e0 := h.error0
    have s0 := h.size0
    refine ⟨u, y, u1, y1, close_of u2 y2 h.size0 (by unfold Plain.bound; dsimp only; positivity) fun i j m k hi hj hm hk => ?_⟩
    dsimp only at hi hj hm hk
    rw [u3 i j m k hi hj hm hk, y3 i j m k hi hj hm hk, regionUp_sum]
    have hin : ∀ ry rx, ry < ky → rx < kx → x.InRange (kx * i + rx) (ky * j + ry) m k := by
      intro ry rx hry hrx
      have r1 := radix_lt hi hrx
      have r2 := radix_lt hj hry
      rw [Nat.mul_comm kx, Nat.mul_comm ky]
      exact (inRange_of_is h.isX).2 ⟨by omega, by omega, hm, hk⟩
    have hN0 : (0 : ℚ) < (kx : ℚ) * ky := by positivity
    have hsum : ∀ (f : Nat → Nat → ℚ) (c : ℚ), (∀ ry rx, ry < ky → rx < kx → |f ry rx| ≤ c) →
        |(∑ ry ∈ Finset.range ky, ∑ rx ∈ Finset.range kx, f ry rx) / ((kx : ℚ) * ky)| ≤ c := by
      intro f c hf
      rw [abs_div, abs_of_pos hN0, div_le_iff₀ hN0]
      calc _ ≤ ∑ ry ∈ Finset.range ky, ∑ rx ∈ Finset.range kx, |f ry rx| :=
            (Finset.abs_sum_le_sum_abs _ _).trans (Finset.sum_le_sum fun _ _ => Finset.abs_sum_le_sum_abs _ _)
        _ ≤ ∑ ry ∈ Finset.range ky, ∑ rx ∈ Finset.range kx, c :=
            Finset.sum_le_sum fun _ hj => Finset.sum_le_sum fun _ hi => hf _ _ (Finset.mem_range.1 hj) (Finset.mem_range.1 hi)
        _ = _ := by simp; ring
    rw [mul_one_div]
    refine ⟨?_, hsum _ _ fun ry rx h1 h2 => h.size _ _ m k (hin ry rx h1 h2)⟩
    have hm1 := mean_err (fun ry rx => t.val (kx * i + rx) (ky * j + ry) m k) hx hy hN (M := b.size + b.error) (by linarith) (by
      intro ry rx h1 h2
      have n1 := h.near _ _ m k (hin ry rx h1 h2)
      have n2 := h.size _ _ m k (hin ry rx h1 h2)
      have := abs_add_le ((t.val (kx * i + rx) (ky * j + ry) m k).value - x.val (kx * i + rx) (ky * j + ry) m k)
        (x.val (kx * i + rx) (ky * j + ry) m k)
      rw [sub_add_cancel] at this
      linarith)
    have hm2 := hsum (fun ry rx => (t.val (kx * i + rx) (ky * j + ry) m k).value - x.val (kx * i + rx) (ky * j + ry) m k) b.error
      fun ry rx h1 h2 => h.near _ _ m k (hin ry rx h1 h2)
    simp only [Finset.sum_sub_distrib, sub_div] at hm2
    have := abs_add_le ((regionUp (fun ry rx => t.val (kx * i + rx) (ky * j + ry) m k) ky kx * (1 / ((kx : Single) * (ky : Single)))).value -
        (∑ ry ∈ Finset.range ky, ∑ rx ∈ Finset.range kx, (t.val (kx * i + rx) (ky * j + ry) m k).value) / ((kx : ℚ) * ky))
      ((∑ ry ∈ Finset.range ky, ∑ rx ∈ Finset.range kx, (t.val (kx * i + rx) (ky * j + ry) m k).value) / ((kx : ℚ) * ky) -
        (∑ ry ∈ Finset.range ky, ∑ rx ∈ Finset.range kx, x.val (kx * i + rx) (ky * j + ry) m k) / ((kx : ℚ) * ky))
    rw [sub_add_sub_cancel] at this
    unfold Plain.bound
    dsimp only
    linarith

/-- Numbers are not below the smallest one. -/
theorem lowest_le (h : Close s b t x) (hlow : b.size + b.error ≤ -env.lowest.value) :
    (∀ v ∈ t.data, env.lowest ≤ v) ∧ ∀ v ∈ x.data, (exactEnv env exp).lowest ≤ v := by
  have key : ∀ i j m k, x.InRange i j m k → env.lowest.value ≤ (t.val i j m k).value ∧ env.lowest.value ≤ x.val i j m k := by
    intro i j m k hin
    have h1 := abs_le.1 (h.near i j m k hin)
    have h2 := abs_le.1 (h.size i j m k hin)
    have := h.error0
    constructor <;> linarith [h1.1, h2.1]
  constructor
  · intro v hv
    obtain ⟨i, hi⟩ := List.mem_iff_getElem?.1 hv
    have hlt : i < t.elements := by
      have := (List.getElem?_eq_some_iff.1 hi).1
      rw [h.isT.2.2.2.2] at this
      exact this
    obtain ⟨a, c, m, k, hr, rfl⟩ := offset_surj t hlt
    have hg : t.get a c m k = some v := hi
    have := (key a c m k (h.sh.inRange.2 hr)).1
    rw [val_of_get hg] at this
    rw [← not_lt, ← Flt.value_lt, not_lt]
    exact this
  · intro v hv
    obtain ⟨i, hi⟩ := List.mem_iff_getElem?.1 hv
    have hlt : i < x.elements := by
      have := (List.getElem?_eq_some_iff.1 hi).1
      rw [h.isX.2.2.2.2] at this
      exact this
    obtain ⟨a, c, m, k, hr, rfl⟩ := offset_surj x hlt
    have hg : x.get a c m k = some v := hi
    have := (key a c m k hr).2
    rw [val_of_get hg] at this
    exact this

/-- The greatest value of a region is at most the greatest size. -/
theorem regionMax_size (h : Close s b t x) {x0 y0 rw rh m k : Nat} {v : ℚ}
    (hin : ∀ i j, i < rw → j < rh → x.InRange (x0 + i) (y0 + j) m k) (hr : RegionMax x x0 y0 rw rh m k v) : |v| ≤ b.size := by
  obtain ⟨⟨i, j, hi, hj, hg⟩, -⟩ := hr
  rw [← val_of_get hg]
  exact h.size _ _ _ _ (hin i j hi hj)

theorem pool_step {kx ky : Nat} (hx : 0 < kx) (hy : 0 < ky) (hlow : b.size + b.error ≤ -env.lowest.value)
    (h : Close s b t x) (ho : (Plain.layer (.maxPool kx ky) : NetConfig.Layer ℚ).outputs [s] = .done [s']) :
    Step env exp mode mode' (.maxPool kx ky) s' b t x := by
  have ho' : (NetConfig.Layer.maxPool kx ky : NetConfig.Layer Single).outputs [s] = .done [s'] := ho
  have ho'' := ho
  unfold Plain.layer NetConfig.Layer.outputs at ho''
  obtain ⟨r, e1, e2⟩ := bind_eq_done ho''
  cases r with
  | none => cases e2
  | some r =>
    obtain ⟨ow, oh⟩ := r
    have e2 := (List.cons.inj (Outcome.done.inj e2)).1
    subst e2
    obtain ⟨hw, hh⟩ := ((C36_max_pooling kx ky s.width s.height hx hy).1 ow oh).1 e1
    obtain ⟨t1, t2, t3, t4, t5⟩ := h.isT
    obtain ⟨x1, x2, x3, x4, x5⟩ := h.isX
    obtain ⟨l1, l2⟩ := lowest_le (exp := exp) h hlow
    let o : Shape := ⟨s.samples, ow, oh, s.maps⟩
    have hb := blank_is o mode.junk
    have hb' := blank_is o mode'.junk
    have hp := blank_is o (0 : Nat)
    obtain ⟨mx, my, y, g1, g2, g3, g4⟩ := C39_forward x (blank o mode'.junk) (blank o 0) (blank o 0) (exactEnv env exp).lowest kx ky hx hy
      x5 hp.2.2.2.2 hp.2.2.2.2 hb'.2.2.2.2 ⟨rfl, rfl, rfl, rfl⟩ ⟨rfl, rfl, rfl, rfl⟩ x1.symm x4.symm (x2.trans hw) (x3.trans hh) l2
    have hyI : y.Is s.samples ow oh s.maps := is_of_sh hb' g2 g3
    have hyv : ∀ ox oy m s, y.InRange ox oy m s → RegionMax x (ox * kx) (oy * ky) kx ky m s (y.val ox oy m s) := by
      intro ox oy m q hin
      obtain ⟨v, f1, f2⟩ := g4 ox oy m q (g2.inRange.1 hin)
      rw [val_of_get f1]
      exact f2
    obtain ⟨mx', my', u, k1, k2, k3⟩ := C94_max_pooling b.error t (blank o mode.junk) x y (blank o 0) (blank o 0) env.lowest kx ky hx hy
      t5 hp.2.2.2.2 hp.2.2.2.2 hb.2.2.2.2 ⟨rfl, rfl, rfl, rfl⟩ ⟨rfl, rfl, rfl, rfl⟩ t1.symm t4.symm (t2.trans hw) (t3.trans hh) l1
      h.toNear g3 ⟨hyI.1.symm, hyI.2.1.symm, hyI.2.2.1.symm, hyI.2.2.2.1.symm⟩ hyv
    have huI : u.Is s.samples ow oh s.maps := ⟨k3.1.1.trans hyI.1, k3.1.2.1.trans hyI.2.1, k3.1.2.2.1.trans hyI.2.2.1, k3.1.2.2.2.trans hyI.2.2.2.1, k2⟩
    refine ⟨u, y, ?_, ?_, huI, hyI, h.size0, h.error0, k3.2.2, fun i j m k hin => regionMax_size h ?_ (hyv i j m k hin)⟩
    rotate_left 2
    · intro i' j' hi' hj'
      obtain ⟨i1, i2, i3, i4⟩ := (inRange_of_is hyI).1 hin
      have r1 := radix_lt i1 hi'
      have r2 := radix_lt i2 hj'
      exact (inRange_of_is h.isX).2 ⟨by omega, by omega, i3, i4⟩
    · show eval env mode (.maxPool kx ky) t = _
      rw [eval_of_outputs h.isT ho']
      unfold forward
      simp only [o] at k1
      simp only [k1]
      rfl
    · show eval (exactEnv env exp) mode' (.maxPool kx ky) x = _
      rw [eval_of_outputs h.isX (l := .maxPool kx ky) ho]
      unfold forward
      simp only [o] at g1
      simp only [g1]
      rfl

theorem strided_step {kx ky sx sy : Nat} (hx : 0 < kx) (hy : 0 < ky) (fx : kx ≤ s.width) (fy : ky ≤ s.height)
    (hlow : b.size + b.error ≤ -env.lowest.value)
    (h : Close s b t x) (ho : (Plain.layer (.strided kx ky sx sy) : NetConfig.Layer ℚ).outputs [s] = .done [s']) :
    Step env exp mode mode' (.strided kx ky sx sy) s' b t x := by
  have ho' : (NetConfig.Layer.advMaxPool kx ky sx sy : NetConfig.Layer Single).outputs [s] = .done [s'] := ho
  have ho'' := ho
  unfold Plain.layer NetConfig.Layer.outputs at ho''
  obtain ⟨r, e1, e2⟩ := bind_eq_done ho''
  have hst : 0 < sx ∧ 0 < sy := by
    by_contra hc
    unfold Pooling.advCreateOutputs at e1
    rw [if_pos (by omega)] at e1
    cases e1
  obtain ⟨ow, oh, e3, hw, hh⟩ := C36_strided_pooling_partial kx ky sx sy s.width s.height hst ⟨fx, fy⟩
  rw [e3] at e1
  obtain rfl := Outcome.done.inj e1
  dsimp only at e2
  rw [if_neg (by omega)] at e2
  have e2 := (List.cons.inj (Outcome.done.inj e2)).1
  simp only [Int.toNat_natCast] at e2
  subst e2
  obtain ⟨t1, t2, t3, t4, t5⟩ := h.isT
  obtain ⟨x1, x2, x3, x4, x5⟩ := h.isX
  obtain ⟨l1, l2⟩ := lowest_le (exp := exp) h hlow
  let o : Shape := ⟨s.samples, ow, oh, s.maps⟩
  have hb := blank_is o mode.junk
  have hb' := blank_is o mode'.junk
  have hp := blank_is o (0 : Nat)
  obtain ⟨mx, y, g1, g2, g3, g4⟩ := C40_forward x (blank o mode'.junk) (blank o 0) (exactEnv env exp).lowest kx ky sx sy hx hy
    x5 hp.2.2.2.2 hb'.2.2.2.2 ⟨rfl, rfl, rfl, rfl⟩ x1.symm x4.symm
    (fun q hq => by rw [x2]; exact (hw q).1 hq) (fun q hq => by rw [x3]; exact (hh q).1 hq) l2
  have hyI : y.Is s.samples ow oh s.maps := is_of_sh hb' g2 g3
  have hyv : ∀ ox oy m s, y.InRange ox oy m s → RegionMax x (ox * sx) (oy * sy) kx ky m s (y.val ox oy m s) := by
    intro ox oy m q hin
    obtain ⟨v, f1, f2⟩ := g4 ox oy m q (g2.inRange.1 hin)
    rw [val_of_get f1]
    exact f2
  obtain ⟨mx', u, k1, k2, k3⟩ := C94_strided_pooling b.error t (blank o mode.junk) x y (blank o 0) env.lowest kx ky sx sy hx hy
    t5 hp.2.2.2.2 hb.2.2.2.2 ⟨rfl, rfl, rfl, rfl⟩ t1.symm t4.symm
    (fun q hq => by rw [t2]; exact (hw q).1 hq) (fun q hq => by rw [t3]; exact (hh q).1 hq) l1
    h.toNear g3 ⟨hyI.1.symm, hyI.2.1.symm, hyI.2.2.1.symm, hyI.2.2.2.1.symm⟩ hyv
  have huI : u.Is s.samples ow oh s.maps := ⟨k3.1.1.trans hyI.1, k3.1.2.1.trans hyI.2.1, k3.1.2.2.1.trans hyI.2.2.1, k3.1.2.2.2.trans hyI.2.2.2.1, k2⟩
  refine ⟨u, y, ?_, ?_, huI, hyI, h.size0, h.error0, k3.2.2, fun i j m k hin => regionMax_size h ?_ (hyv i j m k hin)⟩
  rotate_left 2
  · intro i' j' hi' hj'
    obtain ⟨i1, i2, i3, i4⟩ := (inRange_of_is hyI).1 hin
    have r1 := (hw i).1 i1
    have r2 := (hh j).1 i2
    exact (inRange_of_is h.isX).2 ⟨by omega, by omega, i3, i4⟩
  · show eval env mode (.advMaxPool kx ky sx sy) t = _
    rw [eval_of_outputs h.isT ho']
    unfold forward
    simp only [o] at k1
    simp only [k1]
    rfl
  · show eval (exactEnv env exp) mode' (.advMaxPool kx ky sx sy) x = _
    rw [eval_of_outputs h.isX (l := .advMaxPool kx ky sx sy) ho]
    unfold forward
    simp only [o] at g1
    simp only [g1]
    rfl

/-- The convolution layer as the network sets it up, for any numbers. -/
theorem conv_setup {R : Type _} [Zero R] [One R] [Add R] [Sub R] [Neg R] [Mul R] [Div R] [NatCast R] [LT R] [DecidableLT R] [DecidableEq R]
    (env : Env R) (mode : Mode R) {p : Params} {draw : Nat} {s s' : Shape} {t : Tensor R} (ht : t.Is s.samples s.width s.height s.maps)
    (hg : 0 < p.group) (hgo : p.group ∣ p.outputMaps)
    (hw : (env.parameters draw).weights.Is p.outputMaps p.kernelWidth p.kernelHeight (s.maps / p.group))
    (hb : (env.parameters draw).bias.Is 1 p.outputMaps 1 1)
    (ho : (NetConfig.Layer.conv p draw 0 1 : NetConfig.Layer R).outputs [s] = .done [s']) :
    ∃ l : Convolution.Layer R, l.Connected ∧ l.dropout = 0 ∧ l.params = p ∧ l.inputMaps = s.maps ∧ l.input = t ∧
      l.weights = (env.parameters draw).weights ∧ l.bias = (env.parameters draw).bias ∧
      l.outputWidth = s'.width ∧ l.outputHeight = s'.height ∧ p.outputMaps = s'.maps ∧ s.samples = s'.samples ∧
      eval env mode (.conv p draw 0 1) t = (l.feedForward mode.testing).bind fun l => .done l.output := by
  rw [eval_of_outputs ht ho]
  unfold NetConfig.Layer.outputs at ho
  obtain ⟨r, e1, e2⟩ := bind_eq_done ho
  cases r with
  | none => cases e2
  | some r =>
    have e2 := (List.cons.inj (Outcome.done.inj e2)).1
    subst e2
    unfold Convolution.initialise at e1
    obtain ⟨o, h1, h2⟩ := bind_eq_done e1
    cases o with
    | none => cases h2
    | some q =>
      dsimp only at h2
      split at h2
      · obtain rfl := Option.some.inj (Outcome.done.inj h2)
        unfold Convolution.createOutputs at h1
        split at h1
        · cases h1
        · dsimp only at h1
          split at h1
          · cases h1
          · split at h1
            · cases h1
            · split at h1
              · cases h1
              · have e := Option.some.inj (Outcome.done.inj h1)
                cases e
                obtain ⟨t1, t2, t3, t4, t5⟩ := ht
                refine ⟨{ Convolution.Layer.connect p 0 t.samples t.width t.height t.maps
                    (outDim p.padWidth s.width p.kernelWidth p.strideWidth).toNat
                    (outDim p.padHeight s.height p.kernelHeight p.strideHeight).toNat with
                  input := t, weights := (env.parameters draw).weights, bias := (env.parameters draw).bias,
                  output := blank ⟨s.samples, (outDim p.padWidth s.width p.kernelWidth p.strideWidth).toNat,
                    (outDim p.padHeight s.height p.kernelHeight p.strideHeight).toNat, p.outputMaps⟩ mode.junk }, ?_, rfl, rfl, t4, rfl, rfl,
                  rfl, rfl, rfl, rfl, rfl, rfl⟩
                exact
                  { group_pos := hg
                    group_in := by
                      show p.group ∣ t.maps
                      rw [t4]; exact Nat.dvd_of_mod_eq_zero (by omega)
                    group_out := hgo
                    stride := by
                      show 0 < p.strideWidth ∧ 0 < p.strideHeight
                      omega
                    width := by
                      show _ = outDim p.padWidth t.width p.kernelWidth p.strideWidth
                      rw [t2]; exact Int.toNat_of_nonneg (by omega)
                    height := by
                      show _ = outDim p.padHeight t.height p.kernelHeight p.strideHeight
                      rw [t3]; exact Int.toNat_of_nonneg (by omega)
                    input := ⟨rfl, rfl, rfl, rfl, t5⟩
                    inputDelta := Is.fill' ..
                    output := by
                      show (blank _ mode.junk).Is t.samples _ _ _
                      rw [t1]
                      exact blank_is _ _
                    outputDelta := Is.fill' ..
                    weights := by
                      show (env.parameters draw).weights.Is p.outputMaps p.kernelWidth p.kernelHeight (t.maps / p.group)
                      rw [t4]; exact hw
                    weightsDelta := Is.fill' ..
                    bias := hb
                    biasDelta := Is.fill' ..
                    im2colFf := Is.fill' ..
                    smsFf := Is.fill' ..
                    sms2Bp := Is.fill' ..
                    bpDeltax := Is.fill' ..
                    ones := Is.fill' ..
                    ones_one := fun v hv => (List.mem_replicate.1 hv).2 }
      · cases h2

theorem valueTensor_is {t : Tensor Single} {a b c d : Nat} (h : t.Is a b c d) : (valueTensor t).Is a b c d := by
  obtain ⟨h1, h2, h3, h4, h5⟩ := h
  refine ⟨h1, h2, h3, h4, ?_⟩
  unfold WF at *
  simp only [valueTensor, List.length_map, Tensor.elements] at *
  exact h5

theorem exactAt_bound (p : Convolution.Params) (inputMaps : Nat) (w b x : Tensor ℚ) (ox oy om s : Nat) (X : ℚ)
    (h : ∀ i j im, im < inputMaps / p.group →
      |Props.pixel x i j (om / (p.outputMaps / p.group) * (inputMaps / p.group) + im) s| ≤ X) :
    |exactAt p inputMaps w b x ox oy om s| ≤ |b.val om 0 0 0| + weightSum p inputMaps w om * X := by
  unfold exactAt weightSum
  dsimp only
  simp only [Finset.sum_mul]
  refine (abs_add_le _ _).trans (add_le_add (le_refl _) ?_)
  refine (Finset.abs_sum_le_sum_abs _ _).trans (Finset.sum_le_sum fun im him => ?_)
  refine (Finset.abs_sum_le_sum_abs _ _).trans (Finset.sum_le_sum fun ky _ => ?_)
  refine (Finset.abs_sum_le_sum_abs _ _).trans (Finset.sum_le_sum fun kx _ => ?_)
  rw [abs_mul]
  exact mul_le_mul_of_nonneg_left (h _ _ im (Finset.mem_range.1 him)) (abs_nonneg _)

theorem conv_step {p : Params} {draw : Nat} (hfit : (Plain.conv p draw).Fits env W B s b) (h : Close s b t x)
    (ho : (Plain.layer (.conv p draw) : NetConfig.Layer ℚ).outputs [s] = .done [s']) :
    Step env exp mode mode' (.conv p draw) s' ((Plain.conv p draw).bound W B δ s.maps b) t x := by
  obtain ⟨f1, f2, f3, f4, f5, w0, b0, f6, f7⟩ := hfit
  obtain ⟨l, c1, c2, c3, c4, c5, c6, c7, c8, c9, c10, c11, c12⟩ := conv_setup env mode h.isT f1 f2 f3 f4
    (show (NetConfig.Layer.conv p draw 0 1 : NetConfig.Layer Single).outputs [s] = .done [s'] from ho)
  obtain ⟨l', d1, d2, d3, d4, d5, d6, d7, d8, d9, d10, d11, d12⟩ := conv_setup (exactEnv env exp) mode' h.isX f1 f2
    (valueTensor_is f3) (valueTensor_is f4) ho
  obtain ⟨r', e1, e2, ⟨q1, q2, q3, e3⟩, e4⟩ := C35_forward l' d1 mode'.testing (Or.inr d2)
  have hyI : r'.output.Is s'.samples s'.width s'.height s'.maps := by
    have := e2.output
    rw [e3] at this ⊢
    simp only [d5, d8, d9, d3, d10, h.isX.1, d11] at this
    exact this
  have hyv : ∀ ox oy om k, r'.output.InRange ox oy om k → r'.output.val ox oy om k =
      exactAt l.params l.inputMaps (valueTensor l.weights) (valueTensor l.bias) x ox oy om k := by
    intro ox oy om k hin
    obtain ⟨i1, i2, i3, i4⟩ := (inRange_of_is hyI).1 hin
    have := e4 ox oy om k (by omega) (by omega) (by rw [d3]; omega) (by rw [d5, h.isX.1]; omega)
    rw [val_of_get this, d2, d3, d4, d5, d6, d7, c3, c4, c6, c7]
    have : (if mode'.testing = true then (1 : ℚ) - 0 else 1) = 1 := by split <;> norm_num
    rw [this, one_mul]
    rfl
  have hbound : ∀ om, om < l.params.outputMaps → weightSum l.params l.inputMaps (valueTensor l.weights) om ≤ W draw := by
    rw [c3, c4, c6]; exact f6
  have hbias : ∀ om, om < l.params.outputMaps → |(l.bias.val om 0 0 0).value| ≤ B draw := by
    rw [c3, c7]; exact f7
  obtain ⟨r, g1, g2, g3⟩ := C94_convolution l c1 c2 mode.testing (by rw [c3, c4]; exact f5) b.error (W draw) (B draw) b.size h.error0 h.size0 x
    r'.output (by rw [c5]; exact h.toNear) h.size hbound hbias
    (by rw [c5, c8, c9, c3, c10, h.isT.1, c11]; exact hyI) hyv
  have e0 := h.error0
  have s0 := h.size0
  refine ⟨r.output, r'.output, ?_, ?_, ?_, hyI, ?_, ?_, ?_, ?_⟩
  · show eval env mode (.conv p draw 0 1) t = _
    rw [c12, g1]; rfl
  · show eval (exactEnv env exp) mode' (.conv p draw 0 1) x = _
    rw [d12, e1]; rfl
  · exact ⟨g3.1.1.trans hyI.1, g3.1.2.1.trans hyI.2.1, g3.1.2.2.1.trans hyI.2.2.1, g3.1.2.2.2.trans hyI.2.2.2.1, g2.output.2.2.2.2⟩
  · show 0 ≤ B draw + W draw * b.size
    positivity
  · unfold Plain.bound
    dsimp only
    positivity
  · have := g3.2.2
    rw [c3, c4] at this
    exact this
  · intro i j m k hin
    obtain ⟨i1, i2, i3, i4⟩ := (inRange_of_is hyI).1 hin
    rw [hyv i j m k hin]
    show _ ≤ B draw + W draw * b.size
    have hmx : ∀ im, im < l.inputMaps / l.params.group →
        m / (l.params.outputMaps / l.params.group) * (l.inputMaps / l.params.group) + im < x.maps := by
      intro im him
      rw [h.isX.2.2.2.1, ← h.isT.2.2.2.1, ← c5, c1.input.2.2.2.1]
      exact group_map_lt c1 (by rw [c3, c10]; exact i3) him
    have k1 := exactAt_bound l.params l.inputMaps (valueTensor l.weights) (valueTensor l.bias) x i j m k b.size
      (fun i j im him => pixel_bound h.size0 h.size (hmx im him) (by rw [h.isX.1]; omega))
    have k2 := hbound m (by rw [c3, c10]; exact i3)
    have k3 := hbias m (by rw [c3, c10]; exact i3)
    rw [← val_value] at k3
    have k4 := mul_le_mul_of_nonneg_right k2 s0
    linarith

end steps

/-- One layer, whichever it is. -/
theorem layer_step {env : Env Single} {exp : ℚ → ℚ} (mode : Mode Single) (mode' : Mode ℚ) {W B : Nat → ℚ} {δ : ℚ}
    (hδ : 0 ≤ δ) (ha : Accurate env exp δ) {l : Plain} {s s' : Shape} {b : Bound} {t : Tensor Single} {x : Tensor ℚ}
    (hf : l.Fits env W B s b) (ho : (l.layer : NetConfig.Layer ℚ).outputs [s] = .done [s']) (h : Close s b t x) :
    Step env exp mode mode' l s' (l.bound W B δ s.maps b) t x := by
  cases l with
  | conv p draw => exact conv_step hf h ho
  | relu =>
    obtain rfl : s = s' := by simpa [Plain.layer, NetConfig.Layer.outputs] using ho
    exact relu_step h
  | maxPool kx ky => exact pool_step hf.1 hf.2.1 hf.2.2 h ho
  | strided kx ky sx sy => exact strided_step hf.1 hf.2.1 hf.2.2.1 hf.2.2.2.1 hf.2.2.2.2 h ho
  | border bx bY =>
    obtain rfl : Layers.resizeCreate bx bY s = s' := by simpa [Plain.layer, NetConfig.Layer.outputs] using ho
    exact border_step bx bY h
  | enlarge fx fy =>
    obtain rfl : (⟨s.samples, s.width * fx, s.height * fy, s.maps⟩ : Shape) = s' := by
      simpa [Plain.layer, NetConfig.Layer.outputs] using ho
    exact enlarge_step hf.1 hf.2 h
  | down kx ky => exact down_step hf.1 hf.2.1 hf.2.2 h ho
  | sigmoid =>
    obtain rfl : s = s' := by simpa [Plain.layer, NetConfig.Layer.outputs] using ho
    exact smooth_step hδ h (fun _ _ _ _ => rfl) (fun _ _ => rfl) (fun _ _ => rfl) ha.sigmoid ha.sigmoid_le
  | tanh =>
    obtain rfl : s = s' := by simpa [Plain.layer, NetConfig.Layer.outputs] using ho
    exact smooth_step hδ h (fun _ _ _ _ => rfl) (fun _ _ => rfl) (fun _ _ => rfl) ha.tanh ha.tanh_le

/-- C98: the layers, one after the other: both chains have a result, and the results are as close as the bounds say. -/
theorem C98_chain {env : Env Single} {exp : ℚ → ℚ} (mode : Mode Single) (mode' : Mode ℚ) {W B : Nat → ℚ} {δ : ℚ}
    (hδ : 0 ≤ δ) (ha : Accurate env exp δ) : ∀ (ls : List Plain) (s : Shape) (b : Bound) (o : Shape) (c : Bound)
    (t : Tensor Single) (x : Tensor ℚ), Runs env W B δ ls s b o c → Close s b t x →
    ∃ u y, evalAll env mode (ls.map Plain.layer) t = .done u ∧
      evalAll (exactEnv env exp) mode' (ls.map Plain.layer) x = .done y ∧ Close o c u y
  | [], s, b, o, c, t, x, h, hc => by
    obtain ⟨rfl, rfl⟩ := h
    exact ⟨t, x, rfl, rfl, hc⟩
  | l :: ls, s, b, o, c, t, x, h, hc => by
    obtain ⟨hf, s', ho, hr⟩ := h
    obtain ⟨u, y, h1, h2, h3⟩ := layer_step mode mode' hδ ha hf ho hc
    obtain ⟨u', y', k1, k2, k3⟩ := C98_chain mode mode' hδ ha ls s' _ o c u y hr h3
    refine ⟨u', y', ?_, ?_, k3⟩
    · show (eval env mode l.layer t).bind _ = _
      rw [h1]; exact k1
    · show (eval (exactEnv env exp) mode' l.layer x).bind _ = _
      rw [h2]; exact k2

/-- The layers a description names. -/
def describedPlain : Nat → List Item → List Plain
  | _, [] => []
  | draw, .conv n k s p :: is =>
    .conv { outputMaps := n, kernelWidth := k.1, kernelHeight := k.2,
            strideWidth := (s.getD (1, 1)).1, strideHeight := (s.getD (1, 1)).2,
            padWidth := (p.getD (0, 0)).1, padHeight := (p.getD (0, 0)).2, group := 1 } draw :: describedPlain (draw + 1) is
  | draw, .full n :: is =>
    .conv { outputMaps := n, kernelWidth := 1, kernelHeight := 1, strideWidth := 1, strideHeight := 1,
            padWidth := 0, padHeight := 0, group := 1 } draw :: describedPlain (draw + 1) is
  | draw, .maxPool k :: is => .maxPool k.1 k.2 :: describedPlain draw is
  | draw, .stridedPool k s :: is => .strided k.1 k.2 (s.getD k).1 (s.getD k).2 :: describedPlain draw is
  | draw, .down k :: is => .down k.1 k.2 :: describedPlain draw is
  | draw, .act .sigm :: is => .sigmoid :: describedPlain draw is
  | draw, .act .relu :: is => .relu :: describedPlain draw is
  | draw, .act .tanh :: is => .tanh :: describedPlain draw is
  | draw, _ :: is => describedPlain draw is

/-- The layers of the net but the loss: the border, the described layers, the activation of the output, and what restores the
size of the image. -/
def netPlain (f : Fields) (classes : Nat) (items : List Item) : List Plain :=
  (if f.method = .fcn ∧ 0 < f.rfx ∧ 0 < f.rfy then [.border f.rfx.toNat f.rfy.toNat] else []) ++
  describedPlain 0 items ++ [if classes = 1 then .tanh else .sigmoid] ++
  (if f.method = .fcn ∧ ¬ (f.factorx = 1 ∧ f.factory = 1) then [.enlarge (Config.toUInt f.factorx) (Config.toUInt f.factory)] else [])

theorem described_plain {D : Type _} [Zero D] [One D] : ∀ (items : List Item) (draw : Nat),
    describedLayers (0 : D) 1 draw items = (describedPlain draw items).map Plain.layer
  | [], _ => rfl
  | i :: is, draw => by
    cases i with
    | act a => cases a <;> simp only [describedLayers, describedPlain, List.map_cons, described_plain is _] <;> rfl
    | _ => simp only [describedLayers, describedPlain, List.map_cons, described_plain is _] <;> rfl

theorem net_plain {D : Type _} [Zero D] [One D] (f : Fields) (classes : Nat) (items : List Item) :
    netLayers (0 : D) 1 f classes items = (netPlain f classes items).map Plain.layer := by
  unfold netLayers netPlain
  rw [described_plain items 0]
  simp only [List.map_append, List.map_cons, List.map_nil]
  congr 1
  · congr 1
    · congr 1
      split <;> rfl
    · split <;> rfl
  · split <;> rfl

/-- C98: the output of the network of a configuration text, in single precision and in exact arithmetic: both are computed, and no
number differs by more than the bound that the layers add up to. -/
theorem C98_network_partial (env : Env Single) (exp : ℚ → ℚ) (conv : Config.Str → Single) (conv' : Config.Str → ℚ)
    (items : List Item) (training : Bool) (mode : Mode Single) (mode' : Mode ℚ) (classes : Nat) (f : Fields)
    (hok : ∀ i ∈ items, i.Ok) (hnl : ∀ i ∈ items, '\n' ∉ i.text)
    (hf : construct (linesOf (descriptionText items)) training = .done f)
    (W B : Nat → ℚ) (δ : ℚ) (hδ : 0 ≤ δ) (ha : Accurate env exp δ) (s o : Shape) (b c : Bound)
    (hr : Runs env W B δ (netPlain f classes items) s b o c) (t : Tensor Single) (x : Tensor ℚ) (h : Close s b t x) :
    ∃ u y, predict env conv (linesOf (descriptionText items)) training mode classes [t] = .done u ∧
      predict (exactEnv env exp) conv' (linesOf (descriptionText items)) training mode' classes [x] = .done y ∧
      u.Is o.samples o.width o.height o.maps ∧ y.Is o.samples o.width o.height o.maps ∧
      ∀ i j m k, i < o.width → j < o.height → m < o.maps → k < o.samples →
        |(u.val i j m k).value - y.val i j m k| ≤ c.error := by
  obtain ⟨u, y, h1, h2, h3⟩ := C98_chain mode mode' hδ ha _ s b o c t x hr h
  refine ⟨u, y, predict_chain env conv items training mode classes f hok hnl hf t u ?_,
    predict_chain (exactEnv env exp) conv' items training mode' classes f hok hnl hf x y ?_, h3.isT, h3.isX, ?_⟩
  · rw [net_plain f classes items]; exact h1
  · rw [net_plain f classes items]; exact h2
  · exact fun i j m k hi hj hm hk => h3.near i j m k ((inRange_of_is h3.isX).2 ⟨hi, hj, hm, hk⟩)

/-- A class whose score is larger than all others is the maximum of the pixel. -/
theorem winner {R : Type _} [LinearOrder R] [Zero R] (low : R) {t : Tensor R} (hw : t.WF) {i j m k : Nat} (hin : t.InRange i j m k)
    (hlow : low < t.val i j m k) (h : ∀ m' < t.maps, m' ≠ m → t.val i j m' k < t.val i j m k) :
    t.pixelMaximum low i j k = some m := by
  obtain ⟨i1, i2, i3, i4⟩ := hin
  have hv : ∀ m' < t.maps, t.get i j m' k = some (t.val i j m' k) := fun m' hm => get_eq_val hw ⟨i1, i2, hm, i4⟩
  obtain ⟨q, h1, h2, -⟩ := C10_pixelMaximum low t hw i j k i1 i2 i4
  obtain ⟨hq, v, hv', hall⟩ := h2 ⟨m, _, i3, hv m i3, hlow⟩
  rw [h1]
  by_cases e : q = m
  · rw [e]
  · rw [hv q hq] at hv'
    obtain rfl := Option.some.inj hv'
    exact absurd (h q hq e) (not_lt.2 (hall m _ i3 (hv m i3)).1)

/-- C98: if in exact arithmetic the score of a class leads by more than twice the bound, the classification in single precision is
the same. -/
theorem C98_decision {o : Shape} {c : Bound} {u : Tensor Single} {y : Tensor ℚ} (h : Close o c u y) (low : Single) {i j m k : Nat}
    (hi : i < o.width) (hj : j < o.height) (hm : m < o.maps) (hk : k < o.samples) (hlow : c.size + c.error < -low.value)
    (lead : ∀ m' < o.maps, m' ≠ m → y.val i j m' k + 2 * c.error < y.val i j m k) :
    u.pixelMaximum low i j k = some m ∧ y.pixelMaximum low.value i j k = some m := by
  have hin := (inRange_of_is h.isX).2 ⟨hi, hj, hm, hk⟩
  have n1 := abs_le.1 (h.near i j m k hin)
  have z1 := abs_le.1 (h.size i j m k hin)
  have e0 := h.error0
  constructor
  · refine winner low h.isT.2.2.2.2 ((inRange_of_is h.isT).2 ⟨hi, hj, hm, hk⟩) ?_ ?_
    · rw [← Flt.value_lt]; linarith
    · intro m' hm' hne
      rw [h.isT.2.2.2.1] at hm'
      have n2 := abs_le.1 (h.near i j m' k ((inRange_of_is h.isX).2 ⟨hi, hj, hm', hk⟩))
      have := lead m' hm' hne
      rw [← Flt.value_lt]; linarith
  · refine winner low.value h.isX.2.2.2.2 hin (by linarith) ?_
    intro m' hm' hne
    rw [h.isX.2.2.2.1] at hm'
    have := lead m' hm' hne
    linarith

/-- C98: the network of a configuration text in single precision gives a pixel the class that exact arithmetic gives it, if there
the class leads by more than twice the bound that the layers add up to. -/
theorem C98_network_decision_partial (env : Env Single) (exp : ℚ → ℚ) (conv : Config.Str → Single) (conv' : Config.Str → ℚ)
    (items : List Item) (training : Bool) (mode : Mode Single) (mode' : Mode ℚ) (classes : Nat) (f : Fields)
    (hok : ∀ i ∈ items, i.Ok) (hnl : ∀ i ∈ items, '\n' ∉ i.text)
    (hf : construct (linesOf (descriptionText items)) training = .done f)
    (W B : Nat → ℚ) (δ : ℚ) (hδ : 0 ≤ δ) (ha : Accurate env exp δ) (s o : Shape) (b c : Bound)
    (hr : Runs env W B δ (netPlain f classes items) s b o c) (t : Tensor Single) (x : Tensor ℚ) (h : Close s b t x)
    (low : Single) (hlow : c.size + c.error < -low.value) :
    ∃ u y, predict env conv (linesOf (descriptionText items)) training mode classes [t] = .done u ∧
      predict (exactEnv env exp) conv' (linesOf (descriptionText items)) training mode' classes [x] = .done y ∧
      ∀ i j m k, i < o.width → j < o.height → m < o.maps → k < o.samples →
        (∀ m' < o.maps, m' ≠ m → y.val i j m' k + 2 * c.error < y.val i j m k) →
        u.pixelMaximum low i j k = some m ∧ y.pixelMaximum low.value i j k = some m := by
  obtain ⟨u, y, h1, h2, h3⟩ := C98_chain mode mode' hδ ha _ s b o c t x hr h
  refine ⟨u, y, predict_chain env conv items training mode classes f hok hnl hf t u ?_,
    predict_chain (exactEnv env exp) conv' items training mode' classes f hok hnl hf x y ?_, ?_⟩
  · rw [net_plain f classes items]; exact h1
  · rw [net_plain f classes items]; exact h2
  · exact fun i j m k hi hj hm hk => C98_decision h3 low hi hj hm hk hlow

/-- Parameters for the network of `smallItems`, and a coarse exponential function. -/
def singleEnv : Env Single where
  exp := fun v => if v < 0 then 1 else 1 + 1 + 1
  lowest := ⟨-((2 ^ 24 - 1) * 2 ^ (104 + 149))⟩
  parameters := fun
    | 0 => ⟨⟨2, 3, 2, 1, [1, 0, ⟨2 ^ 150⟩, 1, 1, -1, 0, 1, 0, ⟨2 ^ 150⟩, 1, 1]⟩, ⟨1, 2, 1, 1, [1, -1]⟩⟩
    | _ => ⟨⟨1, 1, 1, 2, [⟨2 ^ 148⟩, -1]⟩, ⟨1, 1, 1, 1, [1]⟩⟩

def coarseExp (x : ℚ) : ℚ := if x < 0 then 1 else 3

/-- Non-vacuity of `Accurate`. -/
theorem singleEnv_accurate : Accurate singleEnv coarseExp (1 / 2) := by
  have a1 : ((1 : Single) / (1 + 1)).value = 1 / 2 := by decide +kernel
  have a2 : ((1 : Single) / (1 + (1 + 1 + 1))).value = 1 / 4 := by decide +kernel
  have b1 : ((1 : Single) - (2 : Nat) / (1 + 1)).value = 0 := by decide +kernel
  have b2 : ((1 : Single) - (2 : Nat) / (1 + 1 + 1 + 1)).value = 1 / 2 := by decide +kernel
  have n (v : Single) (x : ℚ) := abs_nonneg (v.value - x)
  have c (w : Single) : singleEnv.exp w = 1 ∨ singleEnv.exp w = 1 + 1 + 1 := by
    by_cases h : w < 0
    · exact Or.inl (if_pos h)
    · exact Or.inr (if_neg h)
  have s1 (v : Single) : (Activations.sigmoid singleEnv.exp v).value = 1 / 2 ∨ (Activations.sigmoid singleEnv.exp v).value = 1 / 4 := by
    unfold Activations.sigmoid
    rcases c (-v) with h | h <;> rw [h]
    · exact Or.inl a1
    · exact Or.inr a2
  have s2 (x : ℚ) : Activations.sigmoid coarseExp x = 1 / 2 ∨ Activations.sigmoid coarseExp x = 1 / 4 := by
    unfold Activations.sigmoid coarseExp
    split <;> norm_num
  have t1 (v : Single) : (Activations.tanh singleEnv.exp v).value = 0 ∨ (Activations.tanh singleEnv.exp v).value = 1 / 2 := by
    unfold Activations.tanh
    rcases c _ with h | h <;> rw [h]
    · exact Or.inl b1
    · exact Or.inr b2
  have t2 (x : ℚ) : Activations.tanh coarseExp x = 0 ∨ Activations.tanh coarseExp x = 1 / 2 := by
    unfold Activations.tanh coarseExp
    split <;> norm_num
  refine ⟨fun v x => ?_, fun v x => ?_, fun x => ?_, fun x => ?_⟩
  · have := n v x
    rcases s1 v with h | h <;> rcases s2 x with h' | h' <;> rw [h, h', abs_le] <;> constructor <;> linarith
  · have := n v x
    rcases t1 v with h | h <;> rcases t2 x with h' | h' <;> rw [h, h', abs_le] <;> constructor <;> linarith
  · rcases s2 x with h | h <;> rw [h] <;> norm_num
  · rcases t2 x with h | h <;> rw [h] <;> norm_num

/-- Non-vacuity of `C98_network_partial`: the network of `smallItems` on an image of 6 by 4 pixels of at most 4. -/
example (t : Tensor Single) (ht : t.Is 1 6 4 1) (h4 : ∀ i j m k, (valueTensor t).InRange i j m k → |(valueTensor t).val i j m k| ≤ 4)
    (f : Fields) (hf : construct (linesOf (descriptionText smallItems)) false = .done f) (conv conv') (mode mode') :
    ∃ u y, predict singleEnv conv (linesOf (descriptionText smallItems)) false mode 2 [t] = .done u ∧
      predict (exactEnv singleEnv coarseExp) conv' (linesOf (descriptionText smallItems)) false mode' 2 [valueTensor t] = .done y ∧
      ∀ i j k, i < 6 → j < 4 → k < 1 → |(u.val i j 0 k).value - y.val i j 0 k| ≤ 1 / 2 + 1 / 2 ^ 10 := by
  obtain ⟨-, hc⟩ := factories smallItems smallItems_ok (by decide +kernel) (by decide +kernel) (by decide +kernel) (by decide +kernel)
  obtain rfl := Outcome.done.inj (hf.symm.trans hc)
  have hp : netPlain ⟨.fcn, (field (geoX smallItems) : Nat), (field (geoY smallItems) : Nat), (total (geoX smallItems) : Nat),
      (total (geoY smallItems) : Nat), false⟩ 2 smallItems = [.border 2 1, .conv ⟨2, 3, 2, 1, 1, 0, 0, 1⟩ 0, .maxPool 2 2, .relu,
      .conv ⟨1, 1, 1, 1, 1, 0, 0, 1⟩ 1, .sigmoid, .enlarge 2 2] := by rfl
  have hrun : ∃ c, Runs singleEnv (fun d => if d = 0 then 6 else 3 / 2) (fun _ => 1) (1 / 2) [.border 2 1,
      .conv ⟨2, 3, 2, 1, 1, 0, 0, 1⟩ 0, .maxPool 2 2, .relu, .conv ⟨1, 1, 1, 1, 1, 0, 0, 1⟩ 1, .sigmoid, .enlarge 2 2]
      ⟨1, 6, 4, 1⟩ ⟨4, 0⟩ ⟨1, 6, 4, 1⟩ c ∧ c.error ≤ 1 / 2 + 1 / 2 ^ 10 := by
    refine ⟨_, ⟨trivial, ⟨1, 8, 5, 1⟩, rfl, ⟨by decide, by decide, ⟨rfl, rfl, rfl, rfl, rfl⟩, ⟨rfl, rfl, rfl, rfl, rfl⟩, by decide,
      by decide +kernel, by decide +kernel, by decide +kernel, by decide +kernel⟩, ⟨1, 6, 4, 2⟩, rfl, ⟨by decide, by decide,
      by decide +kernel⟩, ⟨1, 3, 2, 2⟩, rfl, trivial, _, rfl, ⟨by decide, by decide, ⟨rfl, rfl, rfl, rfl, rfl⟩,
      ⟨rfl, rfl, rfl, rfl, rfl⟩, by decide, by decide +kernel, by decide +kernel, by decide +kernel, by decide +kernel⟩,
      ⟨1, 3, 2, 1⟩, rfl, trivial, _, rfl, ⟨by decide, by decide⟩, _, rfl, rfl, rfl⟩, by decide +kernel⟩
  obtain ⟨c, hrun, hce⟩ := hrun
  have hclose : Close ⟨1, 6, 4, 1⟩ ⟨4, 0⟩ t (valueTensor t) :=
    ⟨ht, valueTensor_is ht, by norm_num, le_refl _, fun i j m k _ => by rw [val_value, sub_self, abs_zero], h4⟩
  obtain ⟨u, y, h1, h2, -, -, h3⟩ := C98_network_partial singleEnv coarseExp conv conv' smallItems false mode mode' 2 _ smallItems_ok
    (by decide +kernel) hc _ _ _ (by norm_num) singleEnv_accurate _ _ _ c (hp ▸ hrun) t (valueTensor t) hclose
  exact ⟨u, y, h1, h2, fun i j k hi hj hk => (h3 i j 0 k hi hj (by decide) hk).trans hce⟩

/-- Non-vacuity with means of blocks: an image of 6 by 6 pixels of at most 4, means of blocks of 3 by 2 pixels, which are not
numbers of the format in general, and a rectifier. -/
example : Runs singleEnv (fun _ => 0) (fun _ => 0) 0 [.down 3 2, .relu] ⟨1, 6, 6, 1⟩ ⟨4, 0⟩ ⟨1, 2, 3, 1⟩
      ⟨4, 0 + (((3 : Nat) : ℚ) * (2 : Nat) + 3) / 2 ^ 23 * (4 + 0) + 1 / 2 ^ 150⟩ ∧
    ((1 : Single) / ((3 : Nat) * (2 : Nat))).value ≠ 1 / 6 :=
  ⟨⟨⟨by decide, by decide, by decide⟩, _, rfl, trivial, _, rfl, rfl, rfl⟩, by decide +kernel⟩

/-- Non-vacuity of `C98_decision`: scores 1/3 and 1/5, rounded to single precision. -/
example : ((⟨1, 1, 1, 2, [1 / (1 + 1 + 1), 1 / (1 + 1 + 1 + 1 + 1)]⟩ : Tensor Single).pixelMaximum singleEnv.lowest 0 0 0 = some 0 ∧
    (⟨1, 1, 1, 2, [1 / 3, 1 / 5]⟩ : Tensor ℚ).pixelMaximum singleEnv.lowest.value 0 0 0 = some 0) ∧
    ((1 : Single) / (1 + 1 + 1)).value ≠ 1 / 3 := by
  refine ⟨C98_decision (o := ⟨1, 1, 1, 2⟩) (c := ⟨1, 1 / 2 ^ 20⟩)
    (u := ⟨1, 1, 1, 2, [1 / (1 + 1 + 1), 1 / (1 + 1 + 1 + 1 + 1)]⟩) (y := ⟨1, 1, 1, 2, [1 / 3, 1 / 5]⟩)
    ⟨⟨rfl, rfl, rfl, rfl, rfl⟩, ⟨rfl, rfl, rfl, rfl, rfl⟩, by norm_num,
    by norm_num, ?_, ?_⟩ singleEnv.lowest (by decide) (by decide) (by decide) (by decide) (by decide +kernel) ?_, by decide +kernel⟩
  · rintro i j m k ⟨i1, i2, i3, i4⟩
    obtain rfl : i = 0 := by simpa using i1
    obtain rfl : j = 0 := by simpa using i2
    obtain rfl : k = 0 := by simpa using i4
    have : m < 2 := i3
    rcases (by omega : m = 0 ∨ m = 1) with rfl | rfl <;> decide +kernel
  · rintro i j m k ⟨i1, i2, i3, i4⟩
    obtain rfl : i = 0 := by simpa using i1
    obtain rfl : j = 0 := by simpa using i2
    obtain rfl : k = 0 := by simpa using i4
    have : m < 2 := i3
    rcases (by omega : m = 0 ∨ m = 1) with rfl | rfl <;> decide +kernel
  · intro m hm hne
    obtain rfl : m = 1 := by
      have : m < 2 := hm
      omega
    decide +kernel

end CN24.RoundingNet
