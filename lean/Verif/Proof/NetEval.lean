import Verif.Model.NetEval
import Verif.Proof.NetConfig
import Verif.Proof.Layers
import Verif.Proof.Activations
import Verif.Proof.Pooling
import Verif.Props.Convolution
import Verif.Props.NetLayers
import Mathlib.Data.Finset.Fold

/-
Every layer of a chain computes each output pixel from a window of its input.
-/

namespace CN24.NetEval
open CN24 CN24.Tensor CN24.NetConfig

section
variable {R : Type _} [Field R] [LinearOrder R]

/-- Output pixels are computed from windows of the input: the value at `(x, y)` from the part of the
input that starts at `(fx * x, fy * y)` and has `ex + fx` by `ey + fy` pixels, by the same function
everywhere, for inputs of every size and in every mode. -/
def LocalMap (ev : Mode R → Tensor R → Outcome (Tensor R)) (ex fx ey fy m m' : Nat) : Prop :=
  ∃ G : (Nat → Nat → Nat → R) → Nat → R,
    (∀ u v : Nat → Nat → Nat → R, (∀ i j c, i < ex + fx → j < ey + fy → c < m → u i j c = v i j c) →
      ∀ k < m', G u k = G v k) ∧
    ∀ (mode : Mode R) (t : Tensor R) (ss nx ny : Nat), 0 < nx → 0 < ny →
      ex + fx * nx < 2147483648 → ey + fy * ny < 2147483648 →
      t.Is ss (ex + fx * nx) (ey + fy * ny) m →
      ∃ o, ev mode t = .done o ∧ o.Is ss nx ny m' ∧
        ∀ x y k s, x < nx → y < ny → k < m' → s < ss →
          o.val x y k s = G (fun i j c => t.val (fx * x + i) (fy * y + j) c s) k

omit [LinearOrder R] in
theorem LocalMap.comp {e1 e2 : Mode R → Tensor R → Outcome (Tensor R)} {ex fx ey fy m m1 ex' fx' ey' fy' m2 : Nat}
    (h1 : LocalMap e1 ex fx ey fy m m1) (h2 : LocalMap e2 ex' fx' ey' fy' m1 m2)
    (px : 0 < fx) (py : 0 < fy) (px' : 0 < fx') (py' : 0 < fy') :
    LocalMap (fun mode t => (e1 mode t).bind (e2 mode)) (ex + fx * ex') (fx * fx') (ey + fy * ey') (fy * fy') m m2 := by
  obtain ⟨G1, a1, b1⟩ := h1
  obtain ⟨G2, a2, b2⟩ := h2
  refine ⟨fun u => G2 fun i j => G1 fun a b => u (fx * i + a) (fy * j + b), ?_, ?_⟩
  · intro u v h k hk
    refine a2 _ _ (fun i j c hi hj hc => a1 _ _ (fun a b d ha hb hd => h _ _ _ ?_ ?_ hd) _ hc) _ hk
    · have e1 := Nat.mul_le_mul_left fx (show i + 1 ≤ ex' + fx' from hi)
      rw [Nat.mul_add, Nat.mul_add] at e1
      omega
    · have e1 := Nat.mul_le_mul_left fy (show j + 1 ≤ ey' + fy' from hj)
      rw [Nat.mul_add, Nat.mul_add] at e1
      omega
  · intro mode t ss nx ny hnx hny bx by' ht
    have ew : ex + fx * ex' + fx * fx' * nx = ex + fx * (ex' + fx' * nx) := by
      rw [Nat.mul_add, Nat.mul_assoc, Nat.add_assoc]
    have eh : ey + fy * ey' + fy * fy' * ny = ey + fy * (ey' + fy' * ny) := by
      rw [Nat.mul_add, Nat.mul_assoc, Nat.add_assoc]
    rw [ew] at bx
    rw [eh] at by'
    rw [ew, eh] at ht
    have q1 := Nat.mul_pos px' hnx
    have q2 := Nat.mul_pos py' hny
    have r1 := Nat.le_mul_of_pos_left (ex' + fx' * nx) px
    have r2 := Nat.le_mul_of_pos_left (ey' + fy' * ny) py
    obtain ⟨o1, c1, c2, c3⟩ := b1 mode t ss (ex' + fx' * nx) (ey' + fy' * ny) (by omega) (by omega) bx by' ht
    obtain ⟨o2, d1, d2, d3⟩ := b2 mode o1 ss nx ny hnx hny (by omega) (by omega) c2
    refine ⟨o2, by simp only [c1, Outcome.bind_done, d1], d2, ?_⟩
    intro x y k s hx hy hk hs
    rw [d3 x y k s hx hy hk hs]
    refine a2 _ _ (fun i j c hi hj hc => ?_) _ hk
    have f1 := Nat.mul_le_mul_left fx' (show x + 1 ≤ nx from hx)
    have f2 := Nat.mul_le_mul_left fy' (show y + 1 ≤ ny from hy)
    rw [Nat.mul_add] at f1 f2
    rw [c3 _ _ c s (by omega) (by omega) hc hs]
    congr 1
    funext a b d
    rw [Nat.mul_add, Nat.mul_add, Nat.mul_assoc, Nat.mul_assoc, Nat.add_assoc, Nat.add_assoc]

/-! ### The layers -/

omit [Field R] [LinearOrder R] in
theorem blank_is (s : Shape) (v : R) : (blank s v).Is s.samples s.width s.height s.maps := Is.fill' ..

omit [LinearOrder R] [Field R] in
theorem is_of_sh {t u : Tensor R} {a b c d : Nat} (h : t.Is a b c d) (hs : Sh t u) (hw : u.WF) :
    u.Is a b c d := by
  obtain ⟨h1, h2, h3, h4, -⟩ := h
  obtain ⟨s1, s2, s3, s4⟩ := hs
  exact ⟨s1.symm.trans h1, s2.symm.trans h2, s3.symm.trans h3, s4.symm.trans h4, hw⟩

omit [LinearOrder R] [Field R] in
theorem inRange_of_is {t : Tensor R} {a b c d : Nat} (h : t.Is a b c d) {x y m s : Nat} :
    t.InRange x y m s ↔ x < b ∧ y < c ∧ m < d ∧ s < a := by
  obtain ⟨h1, h2, h3, h4, -⟩ := h
  unfold InRange
  rw [h1, h2, h3, h4]

omit [LinearOrder R] [Field R] in
theorem shape_of_is {t : Tensor R} {a b c d : Nat} (h : t.Is a b c d) : t.shape = ⟨a, b, c, d⟩ := by
  obtain ⟨h1, h2, h3, h4, -⟩ := h
  unfold shape
  rw [h1, h2, h3, h4]

end

section
variable {R : Type _} [Zero R] [One R] [Add R] [Sub R] [Neg R] [Mul R] [Div R] [NatCast R] [LT R] [DecidableLT R] [DecidableEq R]

/-- The shape is made, then the values. -/
theorem eval_of_outputs {env : Env R} {mode : Mode R} {l : NetConfig.Layer R} {t : Tensor R}
    {a b c d : Nat} (ht : t.Is a b c d) {o : Shape} (h : l.outputs [⟨a, b, c, d⟩] = .done [o]) :
    eval env mode l t = forward env mode l t o := by
  unfold eval
  rw [shape_of_is ht, h, Outcome.bind_done]

end

section
variable {R : Type _} [Field R] [LinearOrder R]

/-- Elementwise layers. -/
theorem act_local (env : Env R) (l : NetConfig.Layer R) (f : R → R) (m : Nat)
    (hl : ∀ s, l.outputs [s] = .done [s])
    (hf : ∀ mode t o, forward env mode l t o = .ofOption
      (Activations.elementwise t.elements (fun e => (rd t.data e).map f) (blank o mode.junk))) :
    LocalMap (fun mode => eval env mode l) 0 1 0 1 m m := by
  refine ⟨fun u k => f (u 0 0 k), fun u v h k hk => congrArg f (h 0 0 k (by omega) (by omega) hk), ?_⟩
  intro mode t ss nx ny hnx hny bx by' ht
  rw [Nat.zero_add, Nat.zero_add, Nat.one_mul, Nat.one_mul] at ht
  dsimp only
  rw [eval_of_outputs ht (hl _), hf]
  have hb := blank_is (⟨ss, nx, ny, m⟩ : Shape) mode.junk
  have hsh : Sh t (blank (⟨ss, nx, ny, m⟩ : Shape) mode.junk) := by
    obtain ⟨b1, b2, b3, b4, -⟩ := hb
    obtain ⟨h1, h2, h3, h4, -⟩ := ht
    exact ⟨h1.trans b1.symm, h2.trans b2.symm, h3.trans b3.symm, h4.trans b4.symm⟩
  obtain ⟨u, e, g1, g2, g3⟩ := Activations.elementwise_map (f := f) hb.2.2.2.2 ht.2.2.2.2 hsh
  refine ⟨u, by rw [e]; rfl, is_of_sh hb g1 g2, ?_⟩
  intro x y k s hx hy hk hs
  have hin : t.InRange x y k s := (inRange_of_is ht).2 ⟨hx, hy, hk, hs⟩
  have := g3 x y k s ((inRange_of_is hb).2 ⟨hx, hy, hk, hs⟩)
  rw [get_eq_val ht.2.2.2.2 hin] at this
  rw [val_of_get this]
  simp

/-- The largest value of a window, at least `lowest`. -/
def largest (lowest : R) (kx ky : Nat) (u : Nat → Nat → R) : R :=
  (Finset.range kx ×ˢ Finset.range ky).fold max lowest fun p => u p.1 p.2

omit [Field R] in
theorem largest_congr {lowest : R} {kx ky : Nat} {u v : Nat → Nat → R}
    (h : ∀ i j, i < kx → j < ky → u i j = v i j) : largest lowest kx ky u = largest lowest kx ky v := by
  refine Finset.fold_congr fun p hp => ?_
  rw [Finset.mem_product, Finset.mem_range, Finset.mem_range] at hp
  exact h _ _ hp.1 hp.2

theorem found_largest {t : Tensor R} (hw : t.WF) {lowest : R} {x0 y0 kx ky m s : Nat} {r : R × Nat × Nat}
    (hin : ∀ i j, i < kx → j < ky → t.InRange (x0 + i) (y0 + j) m s)
    (h : Pooling.Found t lowest x0 y0 kx ky m s r) :
    r.1 = largest lowest kx ky fun i j => t.val (x0 + i) (y0 + j) m s := by
  unfold largest
  rcases h with ⟨h1, rfl⟩ | ⟨i, j, hi, hj, -, h2, h3, h4⟩
  · refine le_antisymm ?_ ?_
    · exact (Finset.le_fold_max _).2 (Or.inl le_rfl)
    · refine (Finset.fold_max_le _).2 ⟨le_rfl, fun p hp => ?_⟩
      rw [Finset.mem_product, Finset.mem_range, Finset.mem_range] at hp
      exact h1 _ _ _ hp.1 hp.2 (get_eq_val hw (hin _ _ hp.1 hp.2))
  · refine le_antisymm ?_ ?_
    · refine (Finset.le_fold_max _).2 (Or.inr ⟨(i, j), ?_, ?_⟩)
      · rw [Finset.mem_product, Finset.mem_range, Finset.mem_range]
        exact ⟨hi, hj⟩
      · exact le_of_eq (val_of_get h2).symm
    · refine (Finset.fold_max_le _).2 ⟨le_of_lt h3, fun p hp => ?_⟩
      rw [Finset.mem_product, Finset.mem_range, Finset.mem_range] at hp
      exact h4 _ _ _ hp.1 hp.2 (get_eq_val hw (hin _ _ hp.1 hp.2))

/-- Max-pooling. -/
theorem maxPool_local (env : Env R) (kx ky m : Nat) (hx : 0 < kx) (hy : 0 < ky) :
    LocalMap (fun mode => eval env mode (.maxPool kx ky)) 0 kx 0 ky m m := by
  refine ⟨fun u k => largest env.lowest kx ky fun i j => u i j k,
    fun u v h k hk => largest_congr fun i j hi hj => h i j k (by omega) (by omega) hk, ?_⟩
  intro mode t ss nx ny hnx hny bx by' ht
  have ho : (Layer.maxPool kx ky : NetConfig.Layer R).outputs [⟨ss, 0 + kx * nx, 0 + ky * ny, m⟩] =
      .done [⟨ss, nx, ny, m⟩] := by
    unfold Layer.outputs
    simp only [tile_outputs (nx := nx) (ny := ny) hx hy rfl rfl, Outcome.bind_done]
  dsimp only
  rw [eval_of_outputs ht ho]
  have hb := blank_is (⟨ss, nx, ny, m⟩ : Shape) mode.junk
  have hp : (blank (⟨ss, nx, ny, m⟩ : Shape) (0 : Nat)).Is ss nx ny m := Is.fill' ..
  have hsh : Sh (blank (⟨ss, nx, ny, m⟩ : Shape) mode.junk) (blank (⟨ss, nx, ny, m⟩ : Shape) (0 : Nat)) :=
    ⟨rfl, rfl, rfl, rfl⟩
  obtain ⟨h1, h2, h3, h4, h5⟩ := ht
  have ht : t.Is ss (0 + kx * nx) (0 + ky * ny) m := ⟨h1, h2, h3, h4, h5⟩
  obtain ⟨a, b, o, e, -, -, g1, -, -, g2, g3⟩ := Pooling.forward_spec (lowest := env.lowest) (rw := kx) (rh := ky)
    h5 hp.2.2.2.2 hp.2.2.2.2 hb.2.2.2.2 hsh hsh (by rw [h1]; rfl) (by rw [h4]; rfl)
    (by rw [h2, Nat.zero_add, Nat.mul_comm]; rfl) (by rw [h3, Nat.zero_add, Nat.mul_comm]; rfl)
  refine ⟨o, ?_, is_of_sh hb g1 g2, ?_⟩
  · unfold forward
    simp only [e]
    rfl
  · intro x y k s hx' hy' hk hs
    obtain ⟨r, f1, f2, -⟩ := g3 x y k s ((inRange_of_is hb).2 ⟨hx', hy', hk, hs⟩)
    rw [val_of_get f2, found_largest h5 (fun i j hi hj => ?_) f1, Nat.mul_comm x, Nat.mul_comm y]
    have e1 := radix_lt hx' hi
    have e2 := radix_lt hy' hj
    rw [Nat.mul_comm nx] at e1
    rw [Nat.mul_comm ny] at e2
    exact (inRange_of_is ht).2 ⟨by omega, by omega, hk, hs⟩

/-- The mean of blocks. -/
theorem down_local (env : Env R) (kx ky m : Nat) (hx : 0 < kx) (hy : 0 < ky) :
    LocalMap (fun mode => eval env mode (.downSample kx ky)) 0 kx 0 ky m m := by
  refine ⟨fun u k => (∑ j ∈ Finset.range ky, ∑ i ∈ Finset.range kx, u i j k) * (1 / ((kx : R) * (ky : R))),
    fun u v h k hk => ?_, ?_⟩
  · dsimp only
    congr 1
    refine Finset.sum_congr rfl fun j hj => Finset.sum_congr rfl fun i hi => ?_
    rw [Finset.mem_range] at hi hj
    exact h i j k (by omega) (by omega) hk
  intro mode t ss nx ny hnx hny bx by' ht
  have ho : (Layer.downSample kx ky : NetConfig.Layer R).outputs [⟨ss, 0 + kx * nx, 0 + ky * ny, m⟩] =
      .done [⟨ss, nx, ny, m⟩] := by
    unfold Layer.outputs
    simp only [tile_outputs (nx := nx) (ny := ny) hx hy rfl rfl, Outcome.bind_done]
  dsimp only
  rw [eval_of_outputs ht ho]
  have hb := blank_is (⟨ss, nx, ny, m⟩ : Shape) mode.junk
  obtain ⟨h1, h2, h3, h4, h5⟩ := ht
  have ht : t.Is ss (0 + kx * nx) (0 + ky * ny) m := ⟨h1, h2, h3, h4, h5⟩
  obtain ⟨o, e, g1, g2, g3⟩ := TensorMath.down_spec (factor := 1 / ((kx : R) * (ky : R))) (rw := kx) (rh := ky)
    h5 hb.2.2.2.2 (by rw [h2, Nat.zero_add]; rfl) (by rw [h3, Nat.zero_add]; rfl) (by rw [h4]; rfl)
    (by rw [h1]; rfl)
  refine ⟨o, ?_, is_of_sh hb g1 g2, ?_⟩
  · unfold forward Layers.downsampleForward
    simp only [e]
    rfl
  · intro x y k s hx' hy' hk hs
    exact val_of_get (g3 x y k s ((inRange_of_is hb).2 ⟨hx', hy', hk, hs⟩))

/-- Strided max-pooling. -/
theorem advPool_local (env : Env R) (kx ky sx sy m : Nat) (hx : (Geo.window kx sx 0).Ok)
    (hy : (Geo.window ky sy 0).Ok) :
    LocalMap (fun mode => eval env mode (.advMaxPool kx ky sx sy)) (kx - 1) sx (ky - 1) sy m m := by
  obtain ⟨x1, x2, x3, -⟩ := hx
  obtain ⟨y1, y2, y3, -⟩ := hy
  refine ⟨fun u k => largest env.lowest kx ky fun i j => u i j k,
    fun u v h k hk => largest_congr fun i j hi hj => h i j k (by omega) (by omega) hk, ?_⟩
  intro mode t ss nx ny hnx hny bx by' ht
  have q1 := Nat.mul_pos x2 hnx
  have q2 := Nat.mul_pos y2 hny
  obtain ⟨ow, oh, e, hw, hh⟩ := Props.C36_strided_pooling_partial kx ky sx sy (kx - 1 + sx * nx)
    (ky - 1 + sy * ny) ⟨x2, y2⟩ (by omega)
  obtain rfl : ow = nx := count_unique fun q => (hw q).trans (by
    have := window_count (k := kx) (n := nx) (p := 0) x2 x3 q
    simpa using this)
  obtain rfl : oh = ny := count_unique fun q => (hh q).trans (by
    have := window_count (k := ky) (n := ny) (p := 0) y2 y3 q
    simpa using this)
  have ho : (Layer.advMaxPool kx ky sx sy : NetConfig.Layer R).outputs [⟨ss, kx - 1 + sx * ow, ky - 1 + sy * oh, m⟩] =
      .done [⟨ss, ow, oh, m⟩] := by
    unfold Layer.outputs
    simp only [e, Outcome.bind_done]
    rw [if_neg (by omega)]
    simp
  dsimp only
  rw [eval_of_outputs ht ho]
  have hb := blank_is (⟨ss, ow, oh, m⟩ : Shape) mode.junk
  have hp : (blank (⟨ss, ow, oh, m⟩ : Shape) (0 : Nat)).Is ss ow oh m := Is.fill' ..
  have hsh : Sh (blank (⟨ss, ow, oh, m⟩ : Shape) mode.junk) (blank (⟨ss, ow, oh, m⟩ : Shape) (0 : Nat)) :=
    ⟨rfl, rfl, rfl, rfl⟩
  obtain ⟨h1, h2, h3, h4, h5⟩ := ht
  have ht : t.Is ss (kx - 1 + sx * ow) (ky - 1 + sy * oh) m := ⟨h1, h2, h3, h4, h5⟩
  obtain ⟨a, o, e, -, g1, -, g2, g3⟩ := Pooling.advForward_spec (lowest := env.lowest) (rw := kx) (rh := ky)
    (sw := sx) (sh := sy) h5 hp.2.2.2.2 hb.2.2.2.2 hsh (by rw [h1]; rfl) (by rw [h4]; rfl)
    (fun x hx => by rw [h2]; exact (hw x).1 hx) (fun y hy => by rw [h3]; exact (hh y).1 hy)
  refine ⟨o, ?_, is_of_sh hb g1 g2, ?_⟩
  · unfold forward
    simp only [e]
    rfl
  · intro x y k s hx' hy' hk hs
    obtain ⟨r, f1, f2, -⟩ := g3 x y k s ((inRange_of_is hb).2 ⟨hx', hy', hk, hs⟩)
    rw [val_of_get f2, found_largest h5 (fun i j hi hj => ?_) f1, Nat.mul_comm x, Nat.mul_comm y]
    have e1 := (hw x).1 hx'
    have e2 := (hh y).1 hy'
    exact (inRange_of_is ht).2 ⟨by omega, by omega, hk, hs⟩

/-- The parameters of a convolution without groups. -/
def Weights.Fit (w : Weights R) (maps kx ky m : Nat) : Prop :=
  w.weights.Is maps kx ky m ∧ w.bias.Is 1 maps 1 1

/-- Convolutions without padding. -/
theorem conv_local (env : Env R) (n kx ky sx sy m draw : Nat) (one : R)
    (hx : (Geo.window kx sx 0).Ok) (hy : (Geo.window ky sy 0).Ok)
    (hfit : (env.parameters draw).Fit n kx ky m) :
    LocalMap (fun mode => eval env mode (.conv ⟨n, kx, ky, sx, sy, 0, 0, 1⟩ draw 0 one))
      (kx - 1) sx (ky - 1) sy m n := by
  have hx0 := hx
  have hy0 := hy
  obtain ⟨x1, x2, x3, -⟩ := hx
  obtain ⟨y1, y2, y3, -⟩ := hy
  refine ⟨fun u k => (env.parameters draw).bias.val k 0 0 0 + ∑ im ∈ Finset.range m,
    ∑ j ∈ Finset.range ky, ∑ i ∈ Finset.range kx, (env.parameters draw).weights.val i j im k * u i j im,
    fun u v h k hk => ?_, ?_⟩
  · dsimp only
    congr 1
    refine Finset.sum_congr rfl fun c hc => Finset.sum_congr rfl fun j hj => Finset.sum_congr rfl fun i hi => ?_
    rw [Finset.mem_range] at hc hi hj
    rw [h i j c (by omega) (by omega) hc]
  intro mode t ss nx ny hnx hny bx by' ht
  have q1 := Nat.mul_pos x2 hnx
  have q2 := Nat.mul_pos y2 hny
  have ho := conv_outputs (m := m) (n := n) (ss := ss) hx0 hy0 hnx hny (by simpa using bx) (by simpa using by') draw (0 : R) one
  rw [show kx - 1 - 2 * 0 = kx - 1 by omega, show ky - 1 - 2 * 0 = ky - 1 by omega] at ho
  dsimp only
  rw [eval_of_outputs ht ho]
  obtain ⟨h1, h2, h3, h4, h5⟩ := ht
  have ht : t.Is ss (kx - 1 + sx * nx) (ky - 1 + sy * ny) m := ⟨h1, h2, h3, h4, h5⟩
  have hdim : ∀ {k s q : Nat}, 0 < k → 0 < s → 0 < q → (q : Int) = TensorMath.outDim 0 (k - 1 + s * q) k s := by
    intro k s q hk hs hq
    have := Nat.mul_pos hs hq
    rw [(Props.outDim_spec hs).1 (by omega)]
    have e : k - 1 + s * q + 2 * 0 - k = s * q - 1 := by omega
    rw [e]
    have : (s * q - 1) / s = q - 1 := by
      obtain ⟨r, rfl⟩ := Nat.exists_eq_succ_of_ne_zero (by omega : q ≠ 0)
      rw [Nat.mul_succ, show s * r + s - 1 = (s - 1) + s * r by omega, Nat.add_mul_div_left _ _ hs,
        Nat.div_eq_of_lt (by omega)]
      omega
    rw [this]
    omega
  let cl : Convolution.Layer R := { Convolution.Layer.connect ⟨n, kx, ky, sx, sy, 0, 0, 1⟩ 0 t.samples t.width
        t.height t.maps nx ny with
      input := t, weights := (env.parameters draw).weights, bias := (env.parameters draw).bias,
      output := blank (⟨ss, nx, ny, n⟩ : Shape) mode.junk }
  have hc0 := Props.connect_connected (⟨n, kx, ky, sx, sy, 0, 0, 1⟩ : Convolution.Params) (0 : R) t.samples t.width
    t.height t.maps nx ny (by simp) (by simp) (by simp) ⟨x2, y2⟩ (by rw [h2]; exact hdim x1 x2 hnx)
    (by rw [h3]; exact hdim y1 y2 hny)
  have hc : cl.Connected := { hc0 with
    input := ⟨rfl, rfl, rfl, rfl, h5⟩
    weights := by
      have := hfit.1
      show (env.parameters draw).weights.Is n kx ky (t.maps / 1)
      rw [Nat.div_one, h4]
      exact this
    bias := hfit.2
    output := by
      show (blank (⟨ss, nx, ny, n⟩ : Shape) mode.junk).Is t.samples nx ny n
      rw [h1]
      exact blank_is _ _ }
  obtain ⟨l', e, hl', ⟨a, b, c, hval⟩, hout⟩ := Props.C35_forward cl hc mode.testing (Or.inr rfl)
  have e2 : forward env mode (.conv ⟨n, kx, ky, sx, sy, 0, 0, 1⟩ draw 0 one) t ⟨ss, nx, ny, n⟩ = .done l'.output := by
    unfold forward
    show (Convolution.Layer.feedForward cl mode.testing).bind _ = _
    rw [e]
    rfl
  refine ⟨l'.output, e2, ?_, ?_⟩
  · have := hl'.output
    rw [hval] at this ⊢
    have h7 : cl.input.samples = ss := h1
    simp only [h7] at this
    exact this
  · intro x y k s hx' hy' hk hs
    have := hout x y k s hx' hy' hk (by show s < t.samples; omega)
    rw [val_of_get this]
    have hdrop : (if mode.testing then 1 - cl.dropout else 1) = (1 : R) := by
      show (if mode.testing then 1 - 0 else 1) = (1 : R)
      split <;> simp
    simp only [hdrop, one_mul]
    show (env.parameters draw).bias.val k 0 0 0 + ∑ im ∈ Finset.range (t.maps / 1),
      ∑ j ∈ Finset.range ky, ∑ i ∈ Finset.range kx, (env.parameters draw).weights.val i j im k *
        Props.pixel t ((x : Int) * sx + i - (0 : Nat)) ((y : Int) * sy + j - (0 : Nat)) (k / (n / 1) * (t.maps / 1) + im) s = _
    rw [Nat.div_one, Nat.div_one, h4, Nat.div_eq_of_lt hk, Nat.zero_mul]
    congr 1
    refine Finset.sum_congr rfl fun c hc => Finset.sum_congr rfl fun j hj => Finset.sum_congr rfl fun i hi => ?_
    rw [Finset.mem_range] at hc hi hj
    have f1 := Nat.mul_le_mul_left sx (show x + 1 ≤ nx from hx')
    have f2 := Nat.mul_le_mul_left sy (show y + 1 ≤ ny from hy')
    rw [Nat.mul_add] at f1 f2
    have ex : (x : Int) * sx + i - (0 : Nat) = ((sx * x + i : Nat) : Int) := by
      push_cast
      ring
    have ey : (y : Int) * sy + j - (0 : Nat) = ((sy * y + j : Nat) : Int) := by
      push_cast
      ring
    congr 1
    unfold Props.pixel
    rw [ex, ey, if_pos, Int.toNat_natCast, Int.toNat_natCast, Nat.zero_add]
    rw [h2, h3]
    refine ⟨?_, ?_, ?_, ?_⟩ <;> omega

end
end CN24.NetEval
