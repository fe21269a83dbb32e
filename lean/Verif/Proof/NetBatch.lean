import Verif.Spec.NetBatch
import Verif.Proof.NetEval
import Verif.Proof.NetChain
import Verif.Proof.Lrn

/-
Every layer computes the pictures of its outputs one by one.
-/

namespace CN24.NetBatch
open CN24 CN24.Tensor CN24.NetConfig CN24.Net
open CN24.NetEval (is_of_sh inRange_of_is shape_of_is largest largest_congr found_largest)
variable {R : Type _} [Field R] [LinearOrder R]

omit [Field R] [LinearOrder R] in
theorem blank_is (s : Shape) (v : Nat → R) : (blank s v).Is s.samples s.width s.height s.maps := by
  refine ⟨rfl, rfl, rfl, rfl, ?_⟩
  unfold blank WF elements
  simp

omit [Field R] [LinearOrder R] in
theorem sh_of_is {S : Type _} {t : Tensor R} {u : Tensor S} {a b c d : Nat} (h : t.Is a b c d) (h' : u.Is a b c d) :
    Sh t u := by
  obtain ⟨h1, h2, h3, h4, -⟩ := h
  obtain ⟨k1, k2, k3, k4, -⟩ := h'
  exact ⟨h1.trans k1.symm, h2.trans k2.symm, h3.trans k3.symm, h4.trans k4.symm⟩

/-- The layer computes the pictures of its output from those of its input, all by the same function. -/
def Wise1 (env : Env R) (b : Bool) (k : Nat) (l : NetConfig.Layer R) (w h m w' h' m' : Nat) : Prop :=
  ∃ G : (Nat → Nat → Nat → R) → Nat → Nat → Nat → R,
    (∀ u v : Nat → Nat → Nat → R, (∀ i j c, i < w → j < h → c < m → u i j c = v i j c) →
      ∀ x y c, x < w' → y < h' → c < m' → G u x y c = G v x y c) ∧
    ∀ (mode : Mode R) (n : Nat) (t : Tensor R), mode.testing = b → t.Is n w h m →
      ∃ o, forward env mode k l [t] ⟨n, w', h', m'⟩ = .done o ∧ o.Is n w' h' m' ∧
        ∀ x y c s, x < w' → y < h' → c < m' → s < n → o.val x y c s = G (fun i j d => t.val i j d s) x y c

/-- The same with two inputs. -/
def Wise2 (env : Env R) (b : Bool) (k : Nat) (l : NetConfig.Layer R) (w h m1 m2 m' : Nat) : Prop :=
  ∃ G : (Nat → Nat → Nat → R) → (Nat → Nat → Nat → R) → Nat → Nat → Nat → R,
    (∀ u v u' v' : Nat → Nat → Nat → R, (∀ i j c, i < w → j < h → c < m1 → u i j c = v i j c) →
      (∀ i j c, i < w → j < h → c < m2 → u' i j c = v' i j c) →
      ∀ x y c, x < w → y < h → c < m' → G u u' x y c = G v v' x y c) ∧
    ∀ (mode : Mode R) (n : Nat) (t t' : Tensor R), mode.testing = b → t.Is n w h m1 → t'.Is n w h m2 →
      ∃ o, forward env mode k l [t, t'] ⟨n, w, h, m'⟩ = .done o ∧ o.Is n w h m' ∧
        ∀ x y c s, x < w → y < h → c < m' → s < n →
          o.val x y c s = G (fun i j d => t.val i j d s) (fun i j d => t'.val i j d s) x y c

/-! ### Elementwise layers -/

theorem act_wise (env : Env R) (b : Bool) (k : Nat) (l : NetConfig.Layer R) (f : R → R) (w h m : Nat)
    (hf : ∀ mode t o, forward env mode k l [t] o = .ofOption
      (Activations.elementwise t.elements (fun e => (rd t.data e).map f) (blank o (mode.memory k)))) :
    Wise1 env b k l w h m w h m := by
  refine ⟨fun u x y c => f (u x y c), fun u v e x y c hx hy hc => congrArg f (e x y c hx hy hc), ?_⟩
  intro mode n t _ ht
  rw [hf]
  have hb := blank_is (⟨n, w, h, m⟩ : Shape) (mode.memory k)
  obtain ⟨u, e, g1, g2, g3⟩ := Activations.elementwise_map (f := f) hb.2.2.2.2 ht.2.2.2.2 (sh_of_is ht hb)
  refine ⟨u, by rw [e]; rfl, is_of_sh hb g1 g2, ?_⟩
  intro x y c s hx hy hc hs
  have := g3 x y c s ((inRange_of_is hb).2 ⟨hx, hy, hc, hs⟩)
  rw [get_eq_val ht.2.2.2.2 ((inRange_of_is ht).2 ⟨hx, hy, hc, hs⟩)] at this
  exact val_of_get this

/-! ### Border and enlargement -/

/-- A picture with zeros around it. -/
def around (u : Nat → Nat → Nat → R) (w h : Nat) (x y : Int) (c : Nat) : R :=
  if 0 ≤ x ∧ x < w ∧ 0 ≤ y ∧ y < h then u x.toNat y.toNat c else 0

omit [LinearOrder R] in
theorem around_congr {u v : Nat → Nat → Nat → R} {w h m : Nat}
    (e : ∀ i j c, i < w → j < h → c < m → u i j c = v i j c) (x y : Int) {c : Nat} (hc : c < m) :
    around u w h x y c = around v w h x y c := by
  unfold around
  split
  · exact e _ _ _ (by omega) (by omega) hc
  · rfl

omit [LinearOrder R] in
theorem pixel_around {t : Tensor R} {n w h m : Nat} (ht : t.Is n w h m) (x y : Int) (c s : Nat) :
    Props.pixel t x y c s = around (fun i j d => t.val i j d s) w h x y c := by
  unfold Props.pixel around
  rw [ht.2.1, ht.2.2.1]

theorem resize_wise (env : Env R) (b : Bool) (k bx by' w h m : Nat) :
    Wise1 env b k (.resize bx by') w h m (w + bx) (h + by') m := by
  refine ⟨fun u x y c => around u w h ((x : Int) - (bx / 2 : Nat)) ((y : Int) - (by' / 2 : Nat)) c,
    fun u v e x y c _ _ hc => around_congr e _ _ hc, ?_⟩
  intro mode n t _ ht
  have hb := blank_is (⟨n, w + bx, h + by', m⟩ : Shape) (mode.memory k)
  obtain ⟨h1, h2, h3, h4, h5⟩ := ht
  have ht : t.Is n w h m := ⟨h1, h2, h3, h4, h5⟩
  obtain ⟨o, e, g1, g2, g3⟩ := Layers.resizeForward_spec (bx := bx) (by' := by') h5 hb.2.2.2.2
    (by rw [h1]; rfl) (by rw [h4]; rfl) (by rw [h2]; rfl) (by rw [h3]; rfl)
  refine ⟨o, by unfold forward; simp only [e]; rfl, is_of_sh hb g1 g2, ?_⟩
  intro x y c s hx hy hc hs
  have := g3 x y c s ((inRange_of_is hb).2 ⟨hx, hy, hc, hs⟩)
  rw [h2, h3] at this
  dsimp only
  unfold around
  split at this
  · rename_i hin
    rw [if_pos (by omega)]
    rw [get_eq_val h5 ((inRange_of_is ht).2 ⟨by omega, by omega, hc, hs⟩)] at this
    rw [val_of_get this]
    congr 1 <;> omega
  · rename_i hin
    rw [if_neg (by omega)]
    exact val_of_get this

theorem upscale_wise (env : Env R) (b : Bool) (k fx fy w h m : Nat) :
    Wise1 env b k (.upscale fx fy) w h m (w * fx) (h * fy) m := by
  refine ⟨fun u x y c => u (x / fx) (y / fy) c, fun u v e x y c hx hy hc => e _ _ _ ?_ ?_ hc, ?_⟩
  · exact Nat.div_lt_of_lt_mul (by rw [Nat.mul_comm]; exact hx)
  · exact Nat.div_lt_of_lt_mul (by rw [Nat.mul_comm]; exact hy)
  intro mode n t _ ht
  have hb := blank_is (⟨n, w * fx, h * fy, m⟩ : Shape) (mode.memory k)
  obtain ⟨h1, h2, h3, h4, h5⟩ := ht
  have ht : t.Is n w h m := ⟨h1, h2, h3, h4, h5⟩
  obtain ⟨o, e, g1, g2, g3⟩ := TensorMath.up_spec (factor := (1 : R)) (rw := fx) (rh := fy) h5 hb.2.2.2.2
    (by rw [h2]; exact Nat.mul_comm _ _) (by rw [h3]; exact Nat.mul_comm _ _) (by rw [h4]; rfl) (by rw [h1]; rfl)
  refine ⟨o, by unfold forward Layers.upscaleForward; simp only [e]; rfl, is_of_sh hb g1 g2, ?_⟩
  intro x y c s hx hy hc hs
  have px : 0 < fx := by
    rcases Nat.eq_zero_or_pos fx with rfl | h
    · omega
    · exact h
  have py : 0 < fy := by
    rcases Nat.eq_zero_or_pos fy with rfl | h
    · omega
    · exact h
  have ex := Nat.div_add_mod x fx
  have ey := Nat.div_add_mod y fy
  have := g3 (x / fx) (y / fy) c s (x % fx) (y % fy) ((inRange_of_is ht).2
    ⟨Nat.div_lt_of_lt_mul (by rw [Nat.mul_comm]; exact hx), Nat.div_lt_of_lt_mul (by rw [Nat.mul_comm]; exact hy), hc, hs⟩)
    (Nat.mod_lt _ px) (Nat.mod_lt _ py)
  rw [ex, ey, mul_one] at this
  exact val_of_get this

/-! ### Pooling -/

theorem cell_lt {x n k i : Nat} (hx : x < n) (hi : i < k) : x * k + i < n * k := by
  have := Nat.mul_le_mul_right k (show x + 1 ≤ n from hx)
  rw [Nat.add_mul] at this
  omega

theorem maxPool_wise (env : Env R) (b : Bool) (k kx ky nx ny m : Nat) :
    Wise1 env b k (.maxPool kx ky) (nx * kx) (ny * ky) m nx ny m := by
  refine ⟨fun u x y c => largest env.lowest kx ky fun i j => u (x * kx + i) (y * ky + j) c,
    fun u v e x y c hx hy hc => largest_congr fun i j hi hj => e _ _ _ (cell_lt hx hi) (cell_lt hy hj) hc, ?_⟩
  intro mode n t _ ht
  have hb := blank_is (⟨n, nx, ny, m⟩ : Shape) (mode.memory k)
  have hp := blank_is (⟨n, nx, ny, m⟩ : Shape) (fun _ => (0 : Nat))
  have hsh := sh_of_is hb hp
  obtain ⟨h1, h2, h3, h4, h5⟩ := ht
  have ht : t.Is n (nx * kx) (ny * ky) m := ⟨h1, h2, h3, h4, h5⟩
  obtain ⟨p, q, o, e, -, -, g1, -, -, g2, g3⟩ := Pooling.forward_spec (lowest := env.lowest) (rw := kx) (rh := ky)
    h5 hp.2.2.2.2 hp.2.2.2.2 hb.2.2.2.2 hsh hsh (by rw [h1]; rfl) (by rw [h4]; rfl)
    (by rw [h2]; rfl) (by rw [h3]; rfl)
  refine ⟨o, by unfold forward; simp only [e]; rfl, is_of_sh hb g1 g2, ?_⟩
  intro x y c s hx hy hc hs
  obtain ⟨r, f1, f2, -⟩ := g3 x y c s ((inRange_of_is hb).2 ⟨hx, hy, hc, hs⟩)
  rw [val_of_get f2, found_largest h5 (fun i j hi hj => ?_) f1]
  exact (inRange_of_is ht).2 ⟨cell_lt hx hi, cell_lt hy hj, hc, hs⟩

theorem down_wise (env : Env R) (b : Bool) (k kx ky nx ny m : Nat) :
    Wise1 env b k (.downSample kx ky) (nx * kx) (ny * ky) m nx ny m := by
  refine ⟨fun u x y c => (∑ j ∈ Finset.range ky, ∑ i ∈ Finset.range kx, u (kx * x + i) (ky * y + j) c) *
    (1 / ((kx : R) * (ky : R))), fun u v e x y c hx hy hc => ?_, ?_⟩
  · dsimp only
    congr 1
    refine Finset.sum_congr rfl fun j hj => Finset.sum_congr rfl fun i hi => ?_
    rw [Finset.mem_range] at hi hj
    rw [Nat.mul_comm kx, Nat.mul_comm ky]
    exact e _ _ _ (cell_lt hx hi) (cell_lt hy hj) hc
  intro mode n t _ ht
  have hb := blank_is (⟨n, nx, ny, m⟩ : Shape) (mode.memory k)
  obtain ⟨h1, h2, h3, h4, h5⟩ := ht
  obtain ⟨o, e, g1, g2, g3⟩ := TensorMath.down_spec (factor := 1 / ((kx : R) * (ky : R))) (rw := kx) (rh := ky)
    h5 hb.2.2.2.2 (by rw [h2, Nat.mul_comm]; rfl) (by rw [h3, Nat.mul_comm]; rfl) (by rw [h4]; rfl)
    (by rw [h1]; rfl)
  refine ⟨o, by unfold forward Layers.downsampleForward; simp only [e]; rfl, is_of_sh hb g1 g2, ?_⟩
  intro x y c s hx hy hc hs
  exact val_of_get (g3 x y c s ((inRange_of_is hb).2 ⟨hx, hy, hc, hs⟩))

theorem advPool_wise (env : Env R) (b : Bool) (k kx ky sx sy w h nx ny m : Nat)
    (hw : ∀ q, q < nx ↔ q * sx + kx ≤ w) (hh : ∀ q, q < ny ↔ q * sy + ky ≤ h) :
    Wise1 env b k (.advMaxPool kx ky sx sy) w h m nx ny m := by
  have lt : ∀ {x n' s' k' l' i : Nat}, (∀ q, q < n' ↔ q * s' + k' ≤ l') → x < n' → i < k' → x * s' + i < l' := by
    intro x n' s' k' l' i hq hx hi
    have := (hq x).1 hx
    omega
  refine ⟨fun u x y c => largest env.lowest kx ky fun i j => u (x * sx + i) (y * sy + j) c,
    fun u v e x y c hx hy hc => largest_congr fun i j hi hj => e _ _ _ (lt hw hx hi) (lt hh hy hj) hc, ?_⟩
  intro mode n t _ ht
  have hb := blank_is (⟨n, nx, ny, m⟩ : Shape) (mode.memory k)
  have hp := blank_is (⟨n, nx, ny, m⟩ : Shape) (fun _ => (0 : Nat))
  obtain ⟨h1, h2, h3, h4, h5⟩ := ht
  have ht : t.Is n w h m := ⟨h1, h2, h3, h4, h5⟩
  obtain ⟨p, o, e, -, g1, -, g2, g3⟩ := Pooling.advForward_spec (lowest := env.lowest) (rw := kx) (rh := ky)
    (sw := sx) (sh := sy) h5 hp.2.2.2.2 hb.2.2.2.2 (sh_of_is hb hp) (by rw [h1]; rfl) (by rw [h4]; rfl)
    (fun x hx => by rw [h2]; exact (hw x).1 hx) (fun y hy => by rw [h3]; exact (hh y).1 hy)
  refine ⟨o, by unfold forward; simp only [e]; rfl, is_of_sh hb g1 g2, ?_⟩
  intro x y c s hx hy hc hs
  obtain ⟨r, f1, f2, -⟩ := g3 x y c s ((inRange_of_is hb).2 ⟨hx, hy, hc, hs⟩)
  rw [val_of_get f2, found_largest h5 (fun i j hi hj => ?_) f1]
  exact (inRange_of_is ht).2 ⟨lt hw hx hi, lt hh hy hj, hc, hs⟩

/-! ### Normalisation -/

/-- The window of a pixel of a picture. -/
def window (c : Lrn.Config R) (w h m x y k : Nat) : Finset (Nat × Nat × Nat) :=
  Lrn.regionSet c (⟨1, w, h, m, []⟩ : Tensor R) x y k

omit [LinearOrder R] [Field R] in
theorem window_eq (c : Lrn.Config R) {t : Tensor R} {n w h m : Nat} (ht : t.Is n w h m) (x y k : Nat) :
    Lrn.regionSet c t x y k = window c w h m x y k := by
  obtain ⟨h1, h2, h3, h4, -⟩ := ht
  unfold window Lrn.regionSet Lrn.regionList
  rw [h2, h3, h4]

theorem lrn_wise (env : Env R) (b : Bool) (k size : Nat) (alpha beta : R) (across : Bool) (w m : Nat) :
    Wise1 env b k (.lrn size alpha beta across) w w m w w m := by
  let c : Lrn.Config R := ⟨size, alpha, beta, if across then .acrossChannels else .withinChannels⟩
  refine ⟨fun u x y d => u x y d / env.pow (Lrn.base c (window c w w m x y d).card
    (∑ p ∈ window c w w m x y d, u p.1 p.2.1 p.2.2 * u p.1 p.2.1 p.2.2)) beta, fun u v e x y d hx hy hd => ?_, ?_⟩
  · dsimp only
    have : ∑ p ∈ window c w w m x y d, u p.1 p.2.1 p.2.2 * u p.1 p.2.1 p.2.2 =
        ∑ p ∈ window c w w m x y d, v p.1 p.2.1 p.2.2 * v p.1 p.2.1 p.2.2 := by
      refine Finset.sum_congr rfl fun p hp => ?_
      unfold window Lrn.regionSet at hp
      rw [List.mem_toFinset] at hp
      obtain ⟨p1, p2, p3, -⟩ := Lrn.regionList_inRange (s := 0) (⟨hx, hy, hd, Nat.one_pos⟩ :
        (⟨1, w, w, m, []⟩ : Tensor R).InRange x y d 0) hp
      rw [e _ _ _ p1 p2 p3]
    rw [this, e _ _ _ hx hy hd]
  intro mode n t _ ht
  have hb := blank_is (⟨n, w, w, m⟩ : Shape) (mode.memory k)
  have hp := blank_is (⟨n, w, w, m⟩ : Shape) (fun _ => (0 : R))
  obtain ⟨h1, h2, h3, h4, h5⟩ := ht
  have ht : t.Is n w w m := ⟨h1, h2, h3, h4, h5⟩
  obtain ⟨p, o, e, -, g⟩ := Lrn.forward_spec env.pow c h5 hp.2.2.2.2 hb.2.2.2.2 (sh_of_is ht hp) (sh_of_is ht hb)
    (by omega)
  refine ⟨o, ?_, is_of_sh hb g.sh g.wf, ?_⟩
  · show Outcome.ofOption ((Lrn.forward env.pow c t _).map _) = _
    rw [e]
    rfl
  intro x y d s hx hy hd hs
  have := g.hit (x := x) (y := y) (m := d) (s := s) ((inRange_of_is hb).2 ⟨hx, hy, hd, hs⟩)
    (if_pos (by rw [h3]; exact hx))
  rw [val_of_get this]
  unfold Lrn.outValue Lrn.regionSum
  rw [window_eq c ht]

/-! ### Convolution -/

theorem conv_wise (env : Env R) (b : Bool) (k : Nat) (p : Convolution.Params) (draw : Nat) (dropout llr : R)
    (w h m w' h' : Nat) (hg : 0 < p.group) (hi : p.group ∣ m) (ho : p.group ∣ p.outputMaps)
    (hs : 0 < p.strideWidth ∧ 0 < p.strideHeight)
    (hw : (w' : Int) = TensorMath.outDim p.padWidth w p.kernelWidth p.strideWidth)
    (hh : (h' : Int) = TensorMath.outDim p.padHeight h p.kernelHeight p.strideHeight)
    (f1 : (env.convolution draw).weights.Is p.outputMaps p.kernelWidth p.kernelHeight (m / p.group))
    (f2 : (env.convolution draw).bias.Is 1 p.outputMaps 1 1) (hd : b = true ∨ dropout = 0) :
    Wise1 env b k (.conv p draw dropout llr) w h m w' h' p.outputMaps := by
  refine ⟨fun u x y c => (if b then 1 - dropout else 1) * ((env.convolution draw).bias.val c 0 0 0 +
    ∑ im ∈ Finset.range (m / p.group), ∑ j ∈ Finset.range p.kernelHeight, ∑ i ∈ Finset.range p.kernelWidth,
      (env.convolution draw).weights.val i j im c *
        around u w h ((x : Int) * p.strideWidth + i - p.padWidth) ((y : Int) * p.strideHeight + j - p.padHeight)
          (c / (p.outputMaps / p.group) * (m / p.group) + im)), fun u v e x y c hx hy hc => ?_, ?_⟩
  · dsimp only
    congr 2
    refine Finset.sum_congr rfl fun d hd => Finset.sum_congr rfl fun j _ => Finset.sum_congr rfl fun i _ => ?_
    rw [Finset.mem_range] at hd
    congr 1
    refine around_congr e _ _ ?_
    obtain ⟨q, rfl⟩ := hi
    obtain ⟨r, hr⟩ := ho
    rw [Nat.mul_div_cancel_left _ hg] at hd ⊢
    rw [hr, Nat.mul_div_cancel_left _ hg]
    rw [hr] at hc
    have h1 : c / r < p.group := Nat.div_lt_of_lt_mul (by rw [Nat.mul_comm]; exact hc)
    exact cell_lt h1 hd
  intro mode n t hb ht
  obtain ⟨h1, h2, h3, h4, h5⟩ := ht
  have ht : t.Is n w h m := ⟨h1, h2, h3, h4, h5⟩
  let cl : Convolution.Layer R := { Convolution.Layer.connect p dropout t.samples t.width t.height t.maps w' h' with
      input := t, weights := (env.convolution draw).weights, bias := (env.convolution draw).bias,
      output := blank (⟨n, w', h', p.outputMaps⟩ : Shape) (mode.memory k) }
  have hc0 := Props.connect_connected p dropout t.samples t.width t.height t.maps w' h' hg (by rw [h4]; exact hi) ho hs
    (by rw [h2]; exact hw) (by rw [h3]; exact hh)
  have hc : cl.Connected := { hc0 with
    input := ⟨rfl, rfl, rfl, rfl, h5⟩
    weights := by
      show (env.convolution draw).weights.Is p.outputMaps p.kernelWidth p.kernelHeight (t.maps / p.group)
      rw [h4]
      exact f1
    bias := f2
    output := by
      show (blank (⟨n, w', h', p.outputMaps⟩ : Shape) (mode.memory k)).Is t.samples w' h' p.outputMaps
      rw [h1]
      exact blank_is _ _ }
  obtain ⟨l', e, hl', ⟨a, b', c, hval⟩, hout⟩ := Props.C35_forward cl hc mode.testing (by rw [hb]; exact hd)
  refine ⟨l'.output, ?_, ?_, ?_⟩
  · unfold forward
    show (Convolution.Layer.feedForward cl mode.testing).bind _ = _
    rw [e]
    rfl
  · have := hl'.output
    rw [hval] at this ⊢
    have h7 : cl.input.samples = n := h1
    simp only [h7] at this
    exact this
  · intro x y c s hx hy hc hs'
    have := hout x y c s hx hy hc (by show s < t.samples; omega)
    rw [val_of_get this, hb]
    show (if b then 1 - dropout else 1) * ((env.convolution draw).bias.val c 0 0 0 +
      ∑ im ∈ Finset.range (t.maps / p.group), ∑ j ∈ Finset.range p.kernelHeight, ∑ i ∈ Finset.range p.kernelWidth,
        (env.convolution draw).weights.val i j im c *
          Props.pixel t ((x : Int) * p.strideWidth + i - p.padWidth) ((y : Int) * p.strideHeight + j - p.padHeight)
            (c / (p.outputMaps / p.group) * (t.maps / p.group) + im) s) = _
    rw [h4]
    simp only [pixel_around ht]

/-! ### Joins -/

theorem concat_wise (env : Env R) (b : Bool) (k w h m1 m2 : Nat) :
    Wise2 env b k .concat w h m1 m2 (m1 + m2) := by
  refine ⟨fun u v x y c => if c < m1 then u x y c else v x y (c - m1), fun u v u' v' e e' x y c hx hy hc => ?_, ?_⟩
  · dsimp only
    split
    · exact e _ _ _ hx hy (by assumption)
    · exact e' _ _ _ hx hy (by omega)
  intro mode n t t' _ ht ht'
  have hb := blank_is (⟨n, w, h, m1 + m2⟩ : Shape) (mode.memory k)
  obtain ⟨h1, h2, h3, h4, h5⟩ := ht
  have ht : t.Is n w h m1 := ⟨h1, h2, h3, h4, h5⟩
  obtain ⟨k1, k2, k3, k4, k5⟩ := ht'
  have ht' : t'.Is n w h m2 := ⟨k1, k2, k3, k4, k5⟩
  obtain ⟨o, e, g1, g2, g3⟩ := Layers.concatForward_spec h5 k5 hb.2.2.2.2 (by omega) (by omega) (by omega)
    (by rw [h1]; rfl) (by rw [h2]; rfl) (by rw [h3]; rfl) (by rw [h4, k4]; rfl)
  refine ⟨o, by unfold forward; simp only [e]; rfl, is_of_sh hb g1 g2, ?_⟩
  intro x y c s hx hy hc hs
  have := g3 x y c s ((inRange_of_is hb).2 ⟨hx, hy, hc, hs⟩)
  dsimp only
  rw [h4] at this
  split at this
  · rename_i hlt
    rw [if_pos hlt]
    rw [get_eq_val h5 ((inRange_of_is ht).2 ⟨hx, hy, hlt, hs⟩)] at this
    exact val_of_get this
  · rename_i hlt
    rw [if_neg hlt]
    rw [get_eq_val k5 ((inRange_of_is ht').2 ⟨hx, hy, by omega, hs⟩)] at this
    exact val_of_get this

theorem sum_wise (env : Env R) (b : Bool) (k w h m : Nat) : Wise2 env b k .sum w h m m m := by
  refine ⟨fun u v x y c => u x y c + v x y c, fun u v u' v' e e' x y c hx hy hc => ?_, ?_⟩
  · dsimp only
    rw [e _ _ _ hx hy hc, e' _ _ _ hx hy hc]
  intro mode n t t' _ ht ht'
  have hb := blank_is (⟨n, w, h, m⟩ : Shape) (mode.memory k)
  have s1 := sh_of_is ht ht'
  have s2 := sh_of_is ht' hb
  obtain ⟨u, u1, u2, u3, u4⟩ := TensorMath.add_spec ht.2.2.2.2 ht'.2.2.2.2 hb.2.2.2.2 s1.1 s2.1
    (by rw [← s1.elements]) (by rw [s2.elements])
  refine ⟨u, by unfold forward Layers.sumForward; simp only [u1], ?_, ?_⟩
  · refine is_of_sh hb u2 ?_
    unfold WF
    rw [u3, u2.elements]
    exact hb.2.2.2.2
  intro x y c s hx hy hc hs
  have hin : (blank (⟨n, w, h, m⟩ : Shape) (mode.memory k)).InRange x y c s := (inRange_of_is hb).2 ⟨hx, hy, hc, hs⟩
  have := u4 _ (offset_lt _ hin)
  dsimp only
  unfold val
  rw [s2.offset, s1.offset] at this
  rw [u2.offset, s2.offset, s1.offset, List.getD_eq_getElem?_getD, this, Option.getD_some]

/-! ### Layers -/

/-- Two tensors of `n` and `n'` pictures, of which number `s` and number `s'` are the same. -/
def Rel (n n' s s' : Nat) (t t' : Tensor R) : Prop :=
  ∃ w h m, t.Is n w h m ∧ t'.Is n' w h m ∧ ∀ x y c, x < w → y < h → c < m → t.val x y c s = t'.val x y c s'

theorem wise1_rel {env : Env R} {b : Bool} {k : Nat} {l : NetConfig.Layer R} {w h m w' h' m' n n' s s' : Nat}
    (hl : Wise1 env b k l w h m w' h' m') {mode mode' : Mode R} (hb : mode.testing = b) (hb' : mode'.testing = b)
    {t t' : Tensor R} (ht : t.Is n w h m) (ht' : t'.Is n' w h m) (hs : s < n) (hs' : s' < n')
    (he : ∀ x y c, x < w → y < h → c < m → t.val x y c s = t'.val x y c s') :
    ∃ o o', forward env mode k l [t] ⟨n, w', h', m'⟩ = .done o ∧ forward env mode' k l [t'] ⟨n', w', h', m'⟩ = .done o' ∧
      o.shape = ⟨n, w', h', m'⟩ ∧ Rel n n' s s' o o' := by
  obtain ⟨G, g1, g2⟩ := hl
  obtain ⟨o, a1, a2, a3⟩ := g2 mode n t hb ht
  obtain ⟨o', b1, b2, b3⟩ := g2 mode' n' t' hb' ht'
  refine ⟨o, o', a1, b1, shape_of_is a2, w', h', m', a2, b2, fun x y c hx hy hc => ?_⟩
  rw [a3 x y c s hx hy hc hs, b3 x y c s' hx hy hc hs']
  exact g1 _ _ (fun i j d hi hj hd => he i j d hi hj hd) x y c hx hy hc

theorem wise2_rel {env : Env R} {b : Bool} {k : Nat} {l : NetConfig.Layer R} {w h m1 m2 m' n n' s s' : Nat}
    (hl : Wise2 env b k l w h m1 m2 m') {mode mode' : Mode R} (hb : mode.testing = b) (hb' : mode'.testing = b)
    {t t' u u' : Tensor R} (ht : t.Is n w h m1) (ht' : t'.Is n' w h m1) (hu : u.Is n w h m2) (hu' : u'.Is n' w h m2)
    (hs : s < n) (hs' : s' < n')
    (he : ∀ x y c, x < w → y < h → c < m1 → t.val x y c s = t'.val x y c s')
    (he' : ∀ x y c, x < w → y < h → c < m2 → u.val x y c s = u'.val x y c s') :
    ∃ o o', forward env mode k l [t, u] ⟨n, w, h, m'⟩ = .done o ∧
      forward env mode' k l [t', u'] ⟨n', w, h, m'⟩ = .done o' ∧
      o.shape = ⟨n, w, h, m'⟩ ∧ Rel n n' s s' o o' := by
  obtain ⟨G, g1, g2⟩ := hl
  obtain ⟨o, a1, a2, a3⟩ := g2 mode n t u hb ht hu
  obtain ⟨o', b1, b2, b3⟩ := g2 mode' n' t' u' hb' ht' hu'
  refine ⟨o, o', a1, b1, shape_of_is a2, w, h, m', a2, b2, fun x y c hx hy hc => ?_⟩
  rw [a3 x y c s hx hy hc hs, b3 x y c s' hx hy hc hs']
  exact g1 _ _ _ _ (fun i j d hi hj hd => he i j d hi hj hd) (fun i j d hi hj hd => he' i j d hi hj hd) x y c hx hy hc

/-- The parts of a convolution that `CreateOutputs` accepts. -/
theorem initialise_some {p : Convolution.Params} {w h m : Nat} {r : Nat × Nat}
    (e : Convolution.initialise p w h m = .done (some r)) :
    0 < p.group ∧ p.group ∣ m ∧ (0 < p.strideWidth ∧ 0 < p.strideHeight) ∧
      (r.1 : Int) = TensorMath.outDim p.padWidth w p.kernelWidth p.strideWidth ∧
      (r.2 : Int) = TensorMath.outDim p.padHeight h p.kernelHeight p.strideHeight := by
  unfold Convolution.initialise Convolution.createOutputs at e
  split at e
  · cases e
  rename_i h1
  dsimp only at e
  split at e
  · cases e
  rename_i h2
  split at e
  · cases e
  rename_i h3
  split at e
  · cases e
  rename_i h4
  rw [Outcome.bind_done] at e
  dsimp only at e
  split at e
  · cases e
    refine ⟨by omega, Nat.dvd_of_mod_eq_zero (by omega), by omega, ?_, ?_⟩ <;> dsimp only <;> omega
  · cases e

/-- Layers with one input. -/
theorem unary (env : Env R) (b : Bool) (l : NetConfig.Layer R) {n w h m : Nat} {outs : List Shape}
    (e : l.outputs [⟨n, w, h, m⟩] = .done outs) (hs : Suits env b l [⟨n, w, h, m⟩]) :
    ∃ w' h' m', outs = [⟨n, w', h', m'⟩] ∧ (∀ n', l.outputs [⟨n', w, h, m⟩] = .done [⟨n', w', h', m'⟩]) ∧
      ∀ k, Wise1 env b k l w h m w' h' m' := by
  cases l with
  | resize bx by' =>
    cases e
    exact ⟨_, _, _, rfl, fun _ => rfl, fun k => resize_wise env b k bx by' w h m⟩
  | conv p draw dropout llr =>
    unfold Layer.outputs at e
    dsimp only at e
    cases hi : Convolution.initialise p w h m with
    | fatal => rw [hi] at e; cases e
    | undefined => rw [hi] at e; cases e
    | done r =>
      rw [hi, Outcome.bind_done] at e
      cases r with
      | none => cases e
      | some r =>
        cases e
        obtain ⟨i1, i2, i3, i4, i5⟩ := initialise_some hi
        obtain ⟨s1, s2, s3, s4⟩ := hs
        refine ⟨_, _, _, rfl, fun n' => ?_, fun k =>
          conv_wise env b k p draw dropout llr w h m r.1 r.2 i1 i2 s3 i3 i4 i5 s1 s2 s4⟩
        unfold Layer.outputs
        dsimp only
        rw [hi]
        rfl
  | lrn size alpha beta across =>
    cases e
    obtain rfl : w = h := hs
    exact ⟨_, _, _, rfl, fun _ => rfl, fun k => lrn_wise env b k size alpha beta across w m⟩
  | maxPool kx ky =>
    unfold Layer.outputs at e
    dsimp only at e
    cases hi : Pooling.createOutputs kx ky w h with
    | fatal => rw [hi] at e; cases e
    | undefined => rw [hi] at e; cases e
    | done r =>
      rw [hi, Outcome.bind_done] at e
      cases r with
      | none => cases e
      | some r =>
        cases e
        have hk : 0 < kx ∧ 0 < ky := by
          unfold Pooling.createOutputs at hi
          constructor
          · rcases Nat.eq_zero_or_pos kx with h0 | h0
            · rw [if_pos h0] at hi; cases hi
            · exact h0
          · rcases Nat.eq_zero_or_pos ky with h0 | h0
            · split at hi
              · cases hi
              split at hi
              · cases hi
              cases hi
            · exact h0
        obtain ⟨rfl, rfl⟩ := ((Props.C36_max_pooling kx ky w h hk.1 hk.2).1 r.1 r.2).1 hi
        refine ⟨_, _, _, rfl, fun n' => ?_, fun k => maxPool_wise env b k kx ky r.1 r.2 m⟩
        unfold Layer.outputs
        dsimp only
        rw [hi]
        rfl
  | downSample kx ky =>
    unfold Layer.outputs at e
    dsimp only at e
    cases hi : Pooling.createOutputs kx ky w h with
    | fatal => rw [hi] at e; cases e
    | undefined => rw [hi] at e; cases e
    | done r =>
      rw [hi, Outcome.bind_done] at e
      cases r with
      | none => cases e
      | some r =>
        cases e
        have hk : 0 < kx ∧ 0 < ky := by
          unfold Pooling.createOutputs at hi
          constructor
          · rcases Nat.eq_zero_or_pos kx with h0 | h0
            · rw [if_pos h0] at hi; cases hi
            · exact h0
          · rcases Nat.eq_zero_or_pos ky with h0 | h0
            · split at hi
              · cases hi
              split at hi
              · cases hi
              cases hi
            · exact h0
        obtain ⟨rfl, rfl⟩ := ((Props.C36_max_pooling kx ky w h hk.1 hk.2).1 r.1 r.2).1 hi
        refine ⟨_, _, _, rfl, fun n' => ?_, fun k => down_wise env b k kx ky r.1 r.2 m⟩
        unfold Layer.outputs
        dsimp only
        rw [hi]
        rfl
  | advMaxPool kx ky sx sy =>
    have hst : 0 < sx ∧ 0 < sy := by
      unfold Layer.outputs Pooling.advCreateOutputs at e
      dsimp only at e
      split at e
      · cases e
      · omega
    obtain ⟨ow, oh, e1, hw, hh⟩ := Props.C36_strided_pooling_partial kx ky sx sy w h hst hs
    have key : ∀ n', (Layer.advMaxPool kx ky sx sy : NetConfig.Layer R).outputs [⟨n', w, h, m⟩] =
        .done [⟨n', ow, oh, m⟩] := by
      intro n'
      unfold Layer.outputs
      simp only [e1, Outcome.bind_done]
      rw [if_neg (by omega)]
      simp
    rw [key] at e
    cases e
    exact ⟨_, _, _, rfl, key, fun k => advPool_wise env b k kx ky sx sy w h ow oh m hw hh⟩
  | sigmoid =>
    cases e
    exact ⟨_, _, _, rfl, fun _ => rfl, fun k => act_wise env b k _ (Activations.sigmoid env.exp) w h m fun _ _ _ => rfl⟩
  | hmax mu weight =>
    cases e
    exact ⟨_, _, _, rfl, fun _ => rfl, fun k => act_wise env b k _
      (HMax.value env.exp ⟨(env.hmax k).1, (env.hmax k).2, mu, weight, 1⟩) w h m fun _ _ _ => rfl⟩
  | relu =>
    cases e
    exact ⟨_, _, _, rfl, fun _ => rfl, fun k => act_wise env b k _ Activations.relu w h m fun _ _ _ => rfl⟩
  | tanh =>
    cases e
    exact ⟨_, _, _, rfl, fun _ => rfl, fun k => act_wise env b k _ (Activations.tanh env.exp) w h m fun _ _ _ => rfl⟩
  | upscale fx fy =>
    cases e
    exact ⟨_, _, _, rfl, fun _ => rfl, fun k => upscale_wise env b k fx fy w h m⟩
  | concat => cases e
  | sum => cases e
  | error weight => cases e

/-- Joins. -/
theorem binary (env : Env R) (b : Bool) (l : NetConfig.Layer R) {n w h m w2 h2 m2 : Nat} {outs : List Shape}
    (e : l.outputs [⟨n, w, h, m⟩, ⟨n, w2, h2, m2⟩] = .done outs)
    (hs : Suits env b l [⟨n, w, h, m⟩, ⟨n, w2, h2, m2⟩]) :
    w = w2 ∧ h = h2 ∧ ∃ m', outs = [⟨n, w, h, m'⟩] ∧
      (∀ n', l.outputs [⟨n', w, h, m⟩, ⟨n', w2, h2, m2⟩] = .done [⟨n', w, h, m'⟩]) ∧
      ∀ k, Wise2 env b k l w h m m2 m' := by
  cases l with
  | concat =>
    obtain ⟨rfl, rfl⟩ : w = w2 ∧ h = h2 := hs
    have key : ∀ n', (Layer.concat : NetConfig.Layer R).outputs [⟨n', w, h, m⟩, ⟨n', w, h, m2⟩] =
        .done [⟨n', w, h, m + m2⟩] := by
      intro n'
      unfold Layer.outputs Layers.concatCreate
      simp only [ne_eq, not_true_eq_false, if_false]
      rw [if_pos]
      unfold Layers.concatConnect Shape.elements
      simp only [ne_eq, not_true_eq_false, if_false]
      rw [if_neg]
      simp only [Decidable.not_not]
      ring
    rw [key] at e
    cases e
    exact ⟨rfl, rfl, _, rfl, key, fun k => concat_wise env b k w h m m2⟩
  | sum =>
    obtain ⟨rfl, rfl⟩ : w = w2 ∧ h = h2 := hs
    have hm : m = m2 := by
      unfold Layer.outputs Layers.sumCreate at e
      simp only [ne_eq, not_true_eq_false, if_false] at e
      by_contra hne
      rw [if_pos hne] at e
      cases e
    subst hm
    have key : ∀ n', (Layer.sum : NetConfig.Layer R).outputs [⟨n', w, h, m⟩, ⟨n', w, h, m⟩] =
        .done [⟨n', w, h, m⟩] := by
      intro n'
      unfold Layer.outputs Layers.sumCreate
      simp only [ne_eq, not_true_eq_false, if_false]
      unfold Layers.sumConnect
      simp
    rw [key] at e
    cases e
    exact ⟨rfl, rfl, _, rfl, key, fun k => sum_wise env b k w h m⟩
  | resize => cases e
  | conv => cases e
  | lrn => cases e
  | maxPool => cases e
  | downSample => cases e
  | advMaxPool => cases e
  | sigmoid => cases e
  | hmax => cases e
  | relu => cases e
  | tanh => cases e
  | upscale => cases e
  | error => cases e

/-- The loss layer has no outputs. -/
theorem ternary (l : NetConfig.Layer R) {n : Nat} (hn : 0 < n) {a b c : Shape} (ha : a.samples = n) (hb : b.samples = n)
    (hc : c.samples = n) {outs : List Shape} (e : l.outputs [a, b, c] = .done outs) :
    outs = [] ∧ ∀ n', l.outputs [⟨n', a.width, a.height, a.maps⟩, ⟨n', b.width, b.height, b.maps⟩,
      ⟨n', c.width, c.height, c.maps⟩] = .done [] := by
  cases l with
  | error =>
    unfold Layer.outputs at e ⊢
    dsimp only at e ⊢
    split at e
    · cases e
      rename_i h
      refine ⟨rfl, fun n' => if_pos ?_⟩
      unfold ErrorLayer.accepts at h ⊢
      unfold Shape.elements at h ⊢
      simp only [Bool.and_eq_true, decide_eq_true_eq] at h ⊢
      refine ⟨⟨by trivial, ?_⟩, by trivial⟩
      have h1 := h.1.2
      rw [ha, hb] at h1
      simp only [Nat.mul_assoc] at h1 ⊢
      rw [Nat.eq_of_mul_eq_mul_left hn h1]
    · cases e
  | resize => cases e
  | conv => cases e
  | lrn => cases e
  | maxPool => cases e
  | downSample => cases e
  | advMaxPool => cases e
  | sigmoid => cases e
  | hmax => cases e
  | relu => cases e
  | tanh => cases e
  | upscale => cases e
  | concat => cases e
  | sum => cases e

omit [LinearOrder R] in
theorem rel_shapes {n n' s s' : Nat} {t t' : Tensor R} (h : Rel n n' s s' t t') :
    t.shape = ⟨n, t.width, t.height, t.maps⟩ ∧ t'.shape = ⟨n', t.width, t.height, t.maps⟩ := by
  obtain ⟨w, h, m, h1, h2, -⟩ := h
  rw [shape_of_is h1, shape_of_is h2, h1.2.1, h1.2.2.1, h1.2.2.2.1]
  exact ⟨rfl, rfl⟩

/-- A node evaluated in two batches. -/
theorem eval_same {env : Env R} {b : Bool} {l : NetConfig.Layer R} {n n' s s' : Nat} (hs : s < n) (hs' : s' < n')
    {mode mode' : Mode R} (hb : mode.testing = b) (hb' : mode'.testing = b) (k : Nat)
    {ts ts' : List (Tensor R)} (hr : List.Forall₂ (Rel n n' s s') ts ts') {outs : List Shape}
    (e : l.outputs (ts.map Tensor.shape) = .done outs) (hsuit : Suits env b l (ts.map Tensor.shape)) :
    ∃ os os', eval env mode k l ts = .done os ∧ eval env mode' k l ts' = .done os' ∧
      os.map Tensor.shape = outs ∧ List.Forall₂ (Rel n n' s s') os os' := by
  unfold eval
  rw [e, Outcome.bind_done]
  match ts, ts', hr with
  | [], [], .nil => cases l <;> cases e
  | [t], [t'], .cons h .nil =>
    obtain ⟨r1, r2⟩ := rel_shapes h
    rw [List.map_cons, List.map_nil, r1] at e hsuit
    obtain ⟨w', h', m', rfl, k1, k2⟩ := unary env b l e hsuit
    obtain ⟨w, h, m, h1, h2, h3⟩ := h
    rw [h1.2.1, h1.2.2.1, h1.2.2.2.1] at r1 r2 k1 k2
    obtain ⟨o, o', a1, a2, a3, a4⟩ := wise1_rel (k2 k) hb hb' h1 h2 hs hs' h3
    refine ⟨[o], [o'], ?_, ?_, by rw [List.map_cons, a3]; rfl, .cons a4 .nil⟩
    · dsimp only
      rw [a1, Outcome.bind_done]
    · rw [List.map_cons, List.map_nil, r2, k1, Outcome.bind_done]
      dsimp only
      rw [a2, Outcome.bind_done]
  | [t, u], [t', u'], .cons h (.cons g .nil) =>
    obtain ⟨r1, r2⟩ := rel_shapes h
    obtain ⟨q1, q2⟩ := rel_shapes g
    rw [List.map_cons, List.map_cons, List.map_nil, r1, q1] at e hsuit
    obtain ⟨ew, eh, m', rfl, k1, k2⟩ := binary env b l e hsuit
    obtain ⟨w, h, m, h1, h2, h3⟩ := h
    obtain ⟨w2, hh2, m2, g1, g2, g3⟩ := g
    rw [h1.2.1, g1.2.1] at ew
    rw [h1.2.2.1, g1.2.2.1] at eh
    subst ew
    subst eh
    rw [h1.2.1, h1.2.2.1, h1.2.2.2.1] at r1 r2
    rw [g1.2.1, g1.2.2.1, g1.2.2.2.1] at q1 q2
    rw [h1.2.1, h1.2.2.1, h1.2.2.2.1, g1.2.1, g1.2.2.1, g1.2.2.2.1] at k1
    rw [h1.2.1, h1.2.2.1, h1.2.2.2.1, g1.2.2.2.1] at k2
    obtain ⟨o, o', a1, a2, a3, a4⟩ := wise2_rel (k2 k) hb hb' h1 h2 g1 g2 hs hs' h3 g3
    rw [h1.2.1, h1.2.2.1]
    refine ⟨[o], [o'], ?_, ?_, by rw [List.map_cons, a3]; rfl, .cons a4 .nil⟩
    · dsimp only
      rw [a1, Outcome.bind_done]
    · rw [List.map_cons, List.map_cons, List.map_nil, r2, q2, k1, Outcome.bind_done]
      dsimp only
      rw [a2, Outcome.bind_done]
  | [t, u, v], [t', u', v'], .cons h (.cons g (.cons f .nil)) =>
    obtain ⟨r1, r2⟩ := rel_shapes h
    obtain ⟨q1, q2⟩ := rel_shapes g
    obtain ⟨p1, p2⟩ := rel_shapes f
    rw [List.map_cons, List.map_cons, List.map_cons, List.map_nil, r1, q1, p1] at e
    obtain ⟨rfl, k1⟩ := ternary l (by omega : 0 < n) rfl rfl rfl e
    refine ⟨[], [], rfl, ?_, rfl, .nil⟩
    rw [List.map_cons, List.map_cons, List.map_cons, List.map_nil, r2, q2, p2, k1]
    rfl
  | t :: u :: v :: z :: r, t' :: u' :: v' :: z' :: r', .cons _ (.cons _ (.cons _ (.cons _ _))) => cases l <;> cases e

/-! ### Networks -/

/-- The tensors of two runs. -/
def Same (n n' s s' : Nat) (known known' : List (List (Tensor R))) : Prop :=
  List.Forall₂ (List.Forall₂ (Rel n n' s s')) known known'

omit [Field R] [LinearOrder R] in
theorem forall₂_get {α β : Type _} {r : α → β → Prop} : ∀ {l : List α} {l' : List β}, List.Forall₂ r l l' → ∀ (i : Nat) (a : α),
    l[i]? = some a → ∃ b, l'[i]? = some b ∧ r a b
  | [], [], .nil, i, a, h => by simp at h
  | _ :: _, b :: _, .cons h _, 0, a, e => by
    simp only [List.getElem?_cons_zero, Option.some.injEq] at e
    subst e
    exact ⟨b, rfl, h⟩
  | _ :: l, _ :: l', .cons _ h, i + 1, a, e => by
    simp only [List.getElem?_cons_succ] at e ⊢
    exact forall₂_get h i a e

/-- Two tensors of `n` and `n'` pictures of the same size. -/
def Like (n n' : Nat) (t t' : Tensor R) : Prop := ∃ w h m, t.Is n w h m ∧ t'.Is n' w h m

omit [LinearOrder R] in
theorem Rel.like {n n' s s' : Nat} {t t' : Tensor R} (h : Rel n n' s s' t t') : Like n n' t t' := by
  obtain ⟨w, h, m, h1, h2, -⟩ := h
  exact ⟨w, h, m, h1, h2⟩

omit [LinearOrder R] [Field R] in
theorem like_shapes {n n' : Nat} {t t' : Tensor R} (h : Like n n' t t') :
    t.shape = ⟨n, t.width, t.height, t.maps⟩ ∧ t'.shape = ⟨n', t.width, t.height, t.maps⟩ := by
  obtain ⟨w, h, m, h1, h2⟩ := h
  rw [shape_of_is h1, shape_of_is h2, h1.2.1, h1.2.2.1, h1.2.2.2.1]
  exact ⟨rfl, rfl⟩

/-- The loss layer evaluated in two batches. -/
theorem loss_same {env : Env R} {weight : R} {n n' : Nat} (hn : 0 < n)
    {mode mode' : Mode R} (k : Nat) {ts ts' : List (Tensor R)} (hr : List.Forall₂ (Like n n') ts ts') {outs : List Shape}
    (e : (Layer.error weight).outputs (ts.map Tensor.shape) = .done outs) :
    outs = [] ∧ eval env mode k (.error weight) ts = .done [] ∧ eval env mode' k (.error weight) ts' = .done [] := by
  unfold eval
  rw [e, Outcome.bind_done]
  match ts, ts', hr with
  | [], [], .nil => cases e
  | [t], [t'], .cons h .nil => cases e
  | [t, u], [t', u'], .cons h (.cons g .nil) => cases e
  | [t, u, v], [t', u', v'], .cons h (.cons g (.cons f .nil)) =>
    obtain ⟨r1, r2⟩ := like_shapes h
    obtain ⟨q1, q2⟩ := like_shapes g
    obtain ⟨p1, p2⟩ := like_shapes f
    rw [List.map_cons, List.map_cons, List.map_cons, List.map_nil, r1, q1, p1] at e
    obtain ⟨rfl, k1⟩ := ternary _ hn rfl rfl rfl e
    refine ⟨rfl, rfl, ?_⟩
    rw [List.map_cons, List.map_cons, List.map_cons, List.map_nil, r2, q2, p2, k1]
    rfl
  | t :: u :: v :: z :: r, t' :: u' :: v' :: z' :: r', .cons _ (.cons _ (.cons _ (.cons _ _))) => cases e

omit [LinearOrder R] [Field R] in
theorem tensorAt_same {Q : Tensor R → Tensor R → Prop} {data data' : List (Tensor R)}
    {known known' : List (List (Tensor R))} (hk : List.Forall₂ (List.Forall₂ Q) known known') {c : Conn}
    (hd : c.node = 0 → ∀ t, data[c.buffer]? = some t → ∃ t', data'[c.buffer]? = some t' ∧ Q t t') {a : Shape}
    (e : source 0 1 (data.map Tensor.shape) (known.map (List.map Tensor.shape)) c = .done a) :
    ∃ t t', tensorAt data known c = .done t ∧ tensorAt data' known' c = .done t' ∧ t.shape = a ∧ Q t t' := by
  unfold source at e
  unfold tensorAt
  split at e
  · rename_i h0
    rw [if_pos h0, if_pos h0]
    rw [Outcome.ofOption_eq_done, List.getElem?_map, Option.map_eq_some_iff] at e
    obtain ⟨t, e1, e2⟩ := e
    obtain ⟨t', g1, g2⟩ := hd h0 t e1
    rw [e1, g1]
    exact ⟨t, t', rfl, rfl, e2, g2⟩
  · rename_i h0
    rw [if_neg h0, if_neg h0]
    split at e
    · rename_i h1
      rw [if_pos h1, if_pos h1]
      rw [Outcome.ofOption_eq_done, List.getElem?_map, Option.bind_eq_some_iff] at e
      obtain ⟨o, e1, e2⟩ := e
      rw [Option.map_eq_some_iff] at e1
      obtain ⟨ts, e3, rfl⟩ := e1
      rw [List.getElem?_map, Option.map_eq_some_iff] at e2
      obtain ⟨t, e4, e5⟩ := e2
      obtain ⟨ts', g1, g2⟩ := forall₂_get hk _ _ e3
      obtain ⟨t', g3, g4⟩ := forall₂_get g2 _ _ e4
      rw [e3, g1, Option.bind_some, Option.bind_some, e4, g3]
      exact ⟨t, t', rfl, rfl, e5, g4⟩
    · cases e

omit [LinearOrder R] [Field R] in
theorem tensors_same {Q : Tensor R → Tensor R → Prop} {data data' : List (Tensor R)}
    {known known' : List (List (Tensor R))} (hk : List.Forall₂ (List.Forall₂ Q) known known') :
    ∀ {cs : List Conn} {as : List Shape},
    (∀ c ∈ cs, c.node = 0 → ∀ t, data[c.buffer]? = some t → ∃ t', data'[c.buffer]? = some t' ∧ Q t t') →
    sources 0 1 (data.map Tensor.shape) (known.map (List.map Tensor.shape)) cs = .done as →
    ∃ ts ts', tensors data known cs = .done ts ∧ tensors data' known' cs = .done ts' ∧ ts.map Tensor.shape = as ∧
      List.Forall₂ Q ts ts'
  | [], as, _, e => by
    cases e
    exact ⟨[], [], rfl, rfl, rfl, .nil⟩
  | c :: cs, as, hd, e => by
    unfold sources at e
    obtain ⟨a, e1, e⟩ := bind_eq_done e
    obtain ⟨as', e2, e⟩ := bind_eq_done e
    cases e
    obtain ⟨t, t', a1, a2, a3, a4⟩ := tensorAt_same hk (hd c (List.mem_cons_self ..)) e1
    obtain ⟨ts, ts', b1, b2, b3, b4⟩ := tensors_same hk (fun d hm => hd d (List.mem_cons_of_mem _ hm)) e2
    refine ⟨t :: ts, t' :: ts', ?_, ?_, by rw [List.map_cons, a3, b3], .cons a4 b4⟩
    · unfold tensors
      rw [a1, Outcome.bind_done, b1, Outcome.bind_done]
    · unfold tensors
      rw [a2, Outcome.bind_done, b2, Outcome.bind_done]

theorem values_same {env : Env R} {b : Bool} {n n' s s' : Nat} (hs : s < n) (hs' : s' < n')
    {mode mode' : Mode R} (hb : mode.testing = b) (hb' : mode'.testing = b)
    {data data' : List (Tensor R)} (hd : List.Forall₂ (Like n n') data data') :
    ∀ (nodes : List (NewNode R)) {known known' : List (List (Tensor R))}, Same n n' s s' known known' →
    (∀ i t t', Reads nodes i → data[i]? = some t → data'[i]? = some t' → Rel n n' s s' t t') →
    Suitable env b (data.map Tensor.shape) nodes (known.map (List.map Tensor.shape)) →
    ∃ vs vs', values env mode data nodes known = .done vs ∧ values env mode' data' nodes known' = .done vs' ∧
      Same n n' s s' vs vs' ∧ shapes 0 1 (data.map Tensor.shape) nodes (known.map (List.map Tensor.shape)) =
        .done (vs.map (List.map Tensor.shape))
  | [], known, known', hk, _, _ => ⟨known, known', rfl, rfl, hk, rfl⟩
  | nd :: nds, known, known', hk, hr, h => by
    obtain ⟨ins, outs, h1, h2, h3, h4⟩ := h
    have hlen : known'.length = known.length := hk.length_eq.symm
    have hr' : ∀ i t t', Reads nds i → data[i]? = some t → data'[i]? = some t' → Rel n n' s s' t t' := by
      rintro i t t' ⟨m, m1, m2⟩
      exact hr i t t' ⟨m, List.mem_cons_of_mem _ m1, m2⟩
    by_cases herr : ∃ w, nd.layer = .error w
    · obtain ⟨w, hw⟩ := herr
      obtain ⟨ts, ts', a1, a2, rfl, a4⟩ := tensors_same (Q := Like n n')
        (hk.imp fun _ _ h => h.imp fun _ _ h => h.like) (fun c _ _ t ht => forall₂_get hd _ _ ht) h1
      rw [hw] at h2
      obtain ⟨rfl, b1, b2⟩ := loss_same (mode := mode) (mode' := mode') (env := env) (by omega : 0 < n)
        (known.length + 1) a4 h2
      have hk2 : Same n n' s s' (known ++ [[]]) (known' ++ [[]]) := List.rel_append hk (.cons .nil .nil)
      obtain ⟨vs, vs', c1, c2, c3, c4⟩ := values_same hs hs' hb hb' hd nds hk2 hr' (by
        rw [List.map_append]
        exact h4)
      refine ⟨vs, vs', ?_, ?_, c3, ?_⟩
      rotate_left 2
      · unfold shapes
        rw [h1, Outcome.bind_done, hw, h2, Outcome.bind_done, ← c4, List.map_append]
        rfl
      · unfold values
        rw [a1, Outcome.bind_done, hw, b1, Outcome.bind_done, c1]
      · unfold values
        rw [a2, Outcome.bind_done, hlen, hw, b2, Outcome.bind_done, c2]
    · obtain ⟨ts, ts', a1, a2, rfl, a4⟩ := tensors_same hk (fun c hc h0 t ht => by
        obtain ⟨t', g1, -⟩ := forall₂_get hd _ _ ht
        exact ⟨t', g1, hr _ t t' ⟨nd, List.mem_cons_self .., fun w hw => herr ⟨w, hw⟩, c, hc, h0, rfl⟩ ht g1⟩) h1
      obtain ⟨os, os', b1, b2, rfl, b4⟩ := eval_same hs hs' hb hb' (known.length + 1) a4 h2 h3
      have hk2 : Same n n' s s' (known ++ [os]) (known' ++ [os']) := List.rel_append hk (.cons b4 .nil)
      obtain ⟨vs, vs', c1, c2, c3, c4⟩ := values_same hs hs' hb hb' hd nds hk2 hr' (by
        rw [List.map_append]
        exact h4)
      refine ⟨vs, vs', ?_, ?_, c3, ?_⟩
      rotate_left 2
      · unfold shapes
        rw [h1, Outcome.bind_done, h2, Outcome.bind_done, ← c4, List.map_append]
        rfl
      · unfold values
        rw [a1, Outcome.bind_done, b1, Outcome.bind_done, c1]
      · unfold values
        rw [a2, Outcome.bind_done, hlen, b2, Outcome.bind_done, c2]

omit [LinearOrder R] in
theorem outputOf_same {n n' s s' : Nat} : ∀ (nodes : List (NewNode R)) {vs vs' : List (List (Tensor R))},
    Same n n' s s' vs vs' → ∀ t, outputOf nodes vs = some t →
    ∃ t', outputOf nodes vs' = some t' ∧ Rel n n' s s' t t' := by
  intro nodes
  induction nodes with
  | nil => intro vs vs' _ t h; cases h
  | cons nd nds ih =>
    intro vs vs' hv t h
    cases hv with
    | nil => cases h
    | cons h1 h2 =>
      unfold outputOf at h ⊢
      rw [List.zip_cons_cons, List.filter_cons] at h ⊢
      dsimp only at h ⊢
      split at h
      · rename_i ho
        rw [if_pos ho]
        rw [List.map_cons, List.head?_cons, Option.bind_some] at h ⊢
        exact forall₂_get h1 0 t h
      · rename_i ho
        rw [if_neg ho]
        exact ih h2 t h

omit [LinearOrder R] [Field R] in
theorem outputOf_map {α β : Type _} (f : α → β) : ∀ (nodes : List (NewNode R)) (vs : List (List α)),
    outputOf nodes (vs.map (List.map f)) = (outputOf nodes vs).map f
  | [], vs => rfl
  | nd :: nds, [] => rfl
  | nd :: nds, v :: vs => by
    have ih := outputOf_map f nds vs
    unfold outputOf at ih ⊢
    rw [List.map_cons, List.zip_cons_cons, List.zip_cons_cons, List.filter_cons, List.filter_cons]
    dsimp only
    split
    · simp
    · exact ih

end CN24.NetBatch
