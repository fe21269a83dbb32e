import Verif.Proof.NetEval
import Verif.Props.NetConfig

/-
Networks that are chains of layers: evaluation node by node is evaluation layer by layer.
-/

namespace CN24.NetEval
open CN24 CN24.Tensor CN24.NetConfig CN24.Props

section
variable {R : Type _} [Zero R] [One R] [Add R] [Sub R] [Neg R] [Mul R] [Div R] [NatCast R] [LT R] [DecidableLT R] [DecidableEq R]

/-- One layer after the other. -/
def evalAll (env : Env R) (mode : Mode R) : List (NetConfig.Layer R) → Tensor R → Outcome (Tensor R)
  | [], t => .done t
  | l :: ls, t => (eval env mode l t).bind (evalAll env mode ls)

theorem evalAll_append (env : Env R) (mode : Mode R) (as bs : List (NetConfig.Layer R)) (t : Tensor R) :
    evalAll env mode (as ++ bs) t = (evalAll env mode as t).bind (evalAll env mode bs) := by
  induction as generalizing t with
  | nil => rfl
  | cons a as ih =>
    rw [List.cons_append, evalAll, evalAll]
    cases eval env mode a t with
    | done v => simp only [Outcome.bind_done, ih]
    | fatal => rfl
    | undefined => rfl

theorem evalAll_one (env : Env R) (mode : Mode R) (l : NetConfig.Layer R) :
    evalAll env mode [l] = eval env mode l := by
  funext t
  rw [evalAll]
  cases eval env mode l t <;> rfl

end

section
variable {R : Type _} [Field R] [LinearOrder R]

theorem local_nil (env : Env R) (m : Nat) :
    LocalMap (fun mode => evalAll env mode []) 0 1 0 1 m m := by
  refine ⟨fun u k => u 0 0 k, fun u v h k hk => h 0 0 k (by omega) (by omega) hk, ?_⟩
  intro mode t ss nx ny hnx hny bx by' ht
  rw [Nat.zero_add, Nat.zero_add, Nat.one_mul, Nat.one_mul] at ht
  refine ⟨t, rfl, ht, fun x y k s hx hy hk hs => ?_⟩
  simp

theorem local_act (env : Env R) (m : Nat) :
    LocalMap (fun mode => eval env mode .sigmoid) 0 1 0 1 m m ∧ LocalMap (fun mode => eval env mode .tanh) 0 1 0 1 m m ∧
    LocalMap (fun mode => eval env mode .relu) 0 1 0 1 m m :=
  ⟨act_local env _ _ m (fun _ => rfl) (fun _ _ _ => rfl),
    act_local env _ _ m (fun _ => rfl) (fun _ _ _ => rfl),
    act_local env _ _ m (fun _ => rfl) (fun _ _ _ => rfl)⟩

/-- The parameters have the sizes the lines of a description ask for; the `draw`-th convolution gets the
`draw`-th parameters. -/
def Fits (w : Nat → Weights R) : Nat → Nat → List Item → Prop
  | _, _, [] => True
  | draw, m, .conv n k _ _ :: is => (w draw).Fit n k.1 k.2 m ∧ Fits w (draw + 1) n is
  | draw, m, .full n :: is => (w draw).Fit n 1 1 m ∧ Fits w (draw + 1) n is
  | draw, m, _ :: is => Fits w draw m is

/-- A chain of layers without padding computes output pixels from windows. -/
theorem chain_local (env : Env R) : ∀ (items : List Item) (draw m : Nat),
    (∀ i ∈ items, i.Ok) → (∀ g ∈ geoX items, g.Plain) → (∀ g ∈ geoY items, g.Plain) →
    Fits env.parameters draw m items →
    LocalMap (fun mode => evalAll env mode (describedLayers 0 1 draw items)) (field (geoX items)) (total (geoX items))
      (field (geoY items)) (total (geoY items)) m (mapsOf items m)
  | [], draw, m, _, _, _, _ => local_nil env m
  | i :: is, draw, m, hok, hx, hy, hf => by
    have hok' : ∀ j ∈ is, j.Ok := fun j hj => hok j (by simp [hj])
    have tx := total_pos (geoX_ok hok')
    have ty := total_pos (geoY_ok hok')
    -- a line that adds a layer
    have one' : ∀ (l : NetConfig.Layer R) (d : Nat) (gx gy : Geo),
        describedLayers (0 : R) 1 draw (i :: is) = l :: describedLayers 0 1 d is →
        i.geo = some (gx, gy) → Fits env.parameters d (i.maps m) is →
        LocalMap (fun mode => eval env mode l) gx.extra gx.factor gy.extra gy.factor m (i.maps m) →
        LocalMap (fun mode => evalAll env mode (describedLayers 0 1 draw (i :: is))) (field (geoX (i :: is)))
          (total (geoX (i :: is))) (field (geoY (i :: is))) (total (geoY (i :: is))) m (mapsOf (i :: is) m) := by
      intro l d gx gy e hg hfit hl
      have ex : geoX (i :: is) = gx :: geoX is := by simp [geoX, hg]
      have ey : geoY (i :: is) = gy :: geoY is := by simp [geoY, hg]
      rw [ex] at hx
      rw [ey] at hy
      have ih := chain_local env is d (i.maps m) hok' (fun g hg => hx g (by simp [hg]))
        (fun g hg => hy g (by simp [hg])) hfit
      have hgok := (hok i (by simp)).2.2.2 _ hg
      have px : 0 < gx.factor := by
        have := hgok.1
        cases gx with
        | window k s p => exact this.2.1
        | tile k => exact this.1
      have py : 0 < gy.factor := by
        have := hgok.2
        cases gy with
        | window k s p => exact this.2.1
        | tile k => exact this.1
      rw [e, ex, ey]
      exact hl.comp ih px py tx ty
    -- an activation
    have act' : ∀ l : NetConfig.Layer R, describedLayers (0 : R) 1 draw (i :: is) = l :: describedLayers 0 1 draw is →
        geoX (i :: is) = geoX is → geoY (i :: is) = geoY is → mapsOf (i :: is) m = mapsOf is m →
        Fits env.parameters draw m is → LocalMap (fun mode => eval env mode l) 0 1 0 1 m m →
        LocalMap (fun mode => evalAll env mode (describedLayers 0 1 draw (i :: is))) (field (geoX (i :: is)))
          (total (geoX (i :: is))) (field (geoY (i :: is))) (total (geoY (i :: is))) m (mapsOf (i :: is) m) := by
      intro l e ex ey em hfit hl
      rw [ex] at hx
      rw [ey] at hy
      have ih := chain_local env is draw m hok' hx hy hfit
      have := hl.comp ih (by omega) (by omega) tx ty
      rw [e, ex, ey, em]
      simp only [Nat.zero_add, Nat.one_mul] at this
      exact this
    have plain : ∀ {gx gy : Geo}, i.geo = some (gx, gy) → gx.Plain ∧ gy.Plain := by
      intro gx gy hg
      have ex : geoX (i :: is) = gx :: geoX is := by simp [geoX, hg]
      have ey : geoY (i :: is) = gy :: geoY is := by simp [geoY, hg]
      exact ⟨hx gx (by simp [ex]), hy gy (by simp [ey])⟩
    cases i with
    | comment t => exact chain_local env is draw m hok' hx hy hf
    | other t => exact chain_local env is draw m hok' hx hy hf
    | patches => exact chain_local env is draw m hok' hx hy hf
    | conv n k s p =>
      obtain ⟨g1, g2⟩ := (hok _ (List.mem_cons_self ..)).2.2.2 _ rfl
      obtain ⟨p1, p2⟩ := plain rfl
      have p1 : (p.getD (0, 0)).1 = 0 := p1
      have p2 : (p.getD (0, 0)).2 = 0 := p2
      dsimp only at g1 g2
      rw [p1] at g1
      rw [p2] at g2
      refine one' _ (draw + 1) _ _ rfl rfl hf.2 ?_
      have := conv_local env n k.1 k.2 (s.getD (1, 1)).1 (s.getD (1, 1)).2 m draw 1 g1 g2 hf.1
      simp only [Geo.extra, Geo.factor, p1, p2, Nat.mul_zero, Nat.sub_zero]
      exact this
    | full n =>
      obtain ⟨g1, g2⟩ := (hok _ (List.mem_cons_self ..)).2.2.2 _ rfl
      exact one' _ (draw + 1) _ _ rfl rfl hf.2 (conv_local env n 1 1 1 1 m draw 1 g1 g2 hf.1)
    | maxPool k =>
      obtain ⟨g1, g2⟩ := (hok _ (List.mem_cons_self ..)).2.2.2 _ rfl
      exact one' _ draw _ _ rfl rfl hf (maxPool_local env k.1 k.2 m g1.1 g2.1)
    | down k =>
      obtain ⟨g1, g2⟩ := (hok _ (List.mem_cons_self ..)).2.2.2 _ rfl
      exact one' _ draw _ _ rfl rfl hf (down_local env k.1 k.2 m g1.1 g2.1)
    | stridedPool k s =>
      obtain ⟨g1, g2⟩ := (hok _ (List.mem_cons_self ..)).2.2.2 _ rfl
      exact one' _ draw _ _ rfl rfl hf
        (advPool_local env k.1 k.2 (s.getD k).1 (s.getD k).2 m g1 g2)
    | act a =>
      obtain ⟨a1, a2, a3⟩ := local_act env m
      cases a with
      | sigm => exact act' _ rfl rfl rfl rfl hf a1
      | relu => exact act' _ rfl rfl rfl rfl hf a3
      | tanh => exact act' _ rfl rfl rfl rfl hf a2

/-! ### The border and the final enlargement -/

end

section
variable {R : Type _} [Zero R] [One R] [Add R] [Sub R] [Neg R] [Mul R] [Div R] [NatCast R] [LT R] [DecidableLT R] [DecidableEq R]

theorem resize_eval (env : Env R) (mode : Mode R) (bx by' : Nat) {t : Tensor R} {ss w h m : Nat}
    (ht : t.Is ss w h m) : ∃ o, eval env mode (.resize bx by') t = .done o ∧ o.Is ss (w + bx) (h + by') m ∧
      ∀ x y k s, x < w + bx → y < h + by' → k < m → s < ss →
        o.val x y k s = pixel t ((x : Int) - (bx / 2 : Nat)) ((y : Int) - (by' / 2 : Nat)) k s := by
  obtain ⟨h1, h2, h3, h4, h5⟩ := ht
  have ht : t.Is ss w h m := ⟨h1, h2, h3, h4, h5⟩
  rw [eval_of_outputs ht (o := ⟨ss, w + bx, h + by', m⟩) rfl]
  have hb := blank_is (⟨ss, w + bx, h + by', m⟩ : Shape) mode.junk
  obtain ⟨o, e, g1, g2, g3⟩ := Layers.resizeForward_spec (bx := bx) (by' := by') h5 hb.2.2.2.2
    (by rw [h1]; rfl) (by rw [h4]; rfl) (by rw [h2]; rfl) (by rw [h3]; rfl)
  refine ⟨o, by unfold forward; simp only [e]; rfl, is_of_sh hb g1 g2, ?_⟩
  intro x y k s hx hy hk hs
  have := g3 x y k s ((inRange_of_is hb).2 ⟨hx, hy, hk, hs⟩)
  unfold pixel
  rw [h2, h3] at this ⊢
  by_cases hc : bx / 2 ≤ x ∧ x < bx / 2 + w ∧ by' / 2 ≤ y ∧ y < by' / 2 + h
  · rw [if_pos hc, get_eq_val h5 ((inRange_of_is ht).2 ⟨by omega, by omega, hk, hs⟩)] at this
    rw [val_of_get this, if_pos (by omega)]
    congr 1 <;> omega
  · rw [if_neg hc] at this
    rw [val_of_get this, if_neg (by omega)]

end

section
variable {R : Type _} [Field R] [LinearOrder R]

theorem upscale_eval (env : Env R) (mode : Mode R) {fx fy : Nat} (px : 0 < fx) (py : 0 < fy) {t : Tensor R}
    {ss w h m : Nat} (ht : t.Is ss w h m) : ∃ o, eval env mode (.upscale fx fy) t = .done o ∧
      o.Is ss (fx * w) (fy * h) m ∧
      ∀ x y k s, x < fx * w → y < fy * h → k < m → s < ss →
        o.val x y k s = t.val (x / fx) (y / fy) k s := by
  obtain ⟨h1, h2, h3, h4, h5⟩ := ht
  have ht : t.Is ss w h m := ⟨h1, h2, h3, h4, h5⟩
  rw [eval_of_outputs ht (o := ⟨ss, w * fx, h * fy, m⟩) rfl, Nat.mul_comm fx, Nat.mul_comm fy]
  have hb := blank_is (⟨ss, w * fx, h * fy, m⟩ : Shape) mode.junk
  obtain ⟨o, e, g1, g2, g3⟩ := TensorMath.up_spec (factor := (1 : R)) (rw := fx) (rh := fy) h5 hb.2.2.2.2
    (by rw [h2]; exact Nat.mul_comm ..) (by rw [h3]; exact Nat.mul_comm ..) (by rw [h4]; rfl) (by rw [h1]; rfl)
  refine ⟨o, by unfold forward Layers.upscaleForward; simp only [e]; rfl, is_of_sh hb g1 g2, ?_⟩
  intro x y k s hx hy hk hs
  have hx' : x / fx < w := Nat.div_lt_of_lt_mul (by rw [Nat.mul_comm]; exact hx)
  have hy' : y / fy < h := Nat.div_lt_of_lt_mul (by rw [Nat.mul_comm]; exact hy)
  have := g3 (x / fx) (y / fy) k s (x % fx) (y % fy) ((inRange_of_is ht).2 ⟨hx', hy', hk, hs⟩)
    (Nat.mod_lt _ px) (Nat.mod_lt _ py)
  rw [Nat.div_add_mod, Nat.div_add_mod, mul_one] at this
  exact val_of_get this

end

/-! ### Nodes -/

section
variable {R : Type _} [Zero R] [One R] [Add R] [Sub R] [Neg R] [Mul R] [Div R] [NatCast R] [LT R] [DecidableLT R] [DecidableEq R]

theorem values_chain (env : Env R) (mode : Mode R) {nodes : List (NewNode R)} {ls : List (NetConfig.Layer R)}
    (hlen : nodes.length = ls.length)
    (hnode : ∀ (k : Nat) (l : NetConfig.Layer R), ls[k]? = some l →
      nodes[k]? = some ⟨l, [before 1 ⟨0, 0, false⟩ ls k], decide (k + 1 = ls.length)⟩)
    (t : Tensor R) : ∀ (d k : Nat) (known : List (Tensor R)) (cur o : Tensor R), k + d = ls.length →
      known.length = k → tensorAt 0 1 [t] known (before 1 ⟨0, 0, false⟩ ls k) = .done cur →
      evalAll env mode (ls.drop k) cur = .done o →
      ∃ vs, values env mode 0 1 [t] (nodes.drop k) known = .done vs ∧ vs.length = ls.length ∧
        tensorAt 0 1 [t] vs (before 1 ⟨0, 0, false⟩ ls ls.length) = .done o
  | 0, k, known, cur, o, hk, hkn, hcur, he => by
    obtain rfl : k = ls.length := by omega
    rw [List.drop_length] at he
    obtain rfl := Outcome.done.inj he
    refine ⟨known, ?_, hkn, hcur⟩
    rw [← hlen, List.drop_length]
    rfl
  | d + 1, k, known, cur, o, hk, hkn, hcur, he => by
    have hlt : k < ls.length := by omega
    have hl : ls[k]? = some ls[k] := List.getElem?_eq_getElem hlt
    have hn := hnode k _ hl
    have hlt' : k < nodes.length := by omega
    rw [List.getElem?_eq_getElem hlt'] at hn
    have hn := Option.some.inj hn
    rw [List.drop_eq_getElem_cons hlt, evalAll] at he
    obtain ⟨v, hv, he⟩ := bind_eq_done he
    rw [List.drop_eq_getElem_cons hlt', hn]
    have hnext : tensorAt 0 1 [t] (known ++ [v]) (before 1 ⟨0, 0, false⟩ ls (k + 1)) = .done v := by
      unfold before
      simp only [hl]
      unfold tensorAt
      simp only []
      rw [if_neg (by omega), if_pos ⟨by omega, trivial⟩, Nat.add_sub_cancel_left, ← hkn]
      simp
    obtain ⟨vs, r1, r2, r3⟩ := values_chain env mode hlen hnode t d (k + 1) (known ++ [v]) v o (by omega)
      (by simp [hkn]) hnext he
    refine ⟨vs, ?_, r2, r3⟩
    rw [values]
    simp only [hcur, Outcome.bind_done, hv]
    exact r1

omit [Zero R] [One R] [Add R] [Sub R] [Neg R] [Mul R] [Div R] [NatCast R] [LT R] [DecidableLT R] [DecidableEq R] in
/-- Only the last node is the output. -/
theorem outputOf_last {nodes : List (NewNode R)} {vs : List (Tensor R)} {n : Nat}
    (hn : nodes.length = n + 1) (hv : vs.length = n + 1) {o : Tensor R} (ho : vs[n]? = some o)
    (hout : ∀ (k : Nat) (x : NewNode R), nodes[k]? = some x → x.isOutput = decide (k + 1 = n + 1)) :
    outputOf nodes vs = some o := by
  obtain ⟨init, last, rfl⟩ : ∃ a b, nodes = a ++ [b] := by
    have : nodes ≠ [] := by rintro rfl; simp at hn
    exact ⟨_, _, (List.dropLast_append_getLast this).symm⟩
  obtain ⟨init', last', rfl⟩ : ∃ a b, vs = a ++ [b] := by
    have : vs ≠ [] := by rintro rfl; simp at hv
    exact ⟨_, _, (List.dropLast_append_getLast this).symm⟩
  have e1 : init.length = n := by simpa using hn
  have e2 : init'.length = n := by simpa using hv
  have hl : last.isOutput = true := by
    have := hout n last (by rw [List.getElem?_append_right (by omega), e1]; simp)
    simpa using this
  have hlast : last' = o := by
    rw [List.getElem?_append_right (by omega), e2] at ho
    simpa using ho
  unfold outputOf
  rw [List.zip_append (by omega), List.filter_append]
  have : (init.zip init').filter (fun nv => nv.1.isOutput) = [] := by
    rw [List.filter_eq_nil_iff]
    rintro ⟨a, b⟩ hab hc
    have ha := (List.of_mem_zip hab).1
    obtain ⟨k, hk, rfl⟩ := List.getElem_of_mem ha
    have := hout k init[k] (by rw [List.getElem?_append_left hk]; exact List.getElem?_eq_getElem hk)
    rw [hc] at this
    have : k + 1 = n + 1 := by simpa using this
    omega
  rw [this]
  simp [hl, hlast]

/-- What a described net computes is what its layers compute, one after the other. -/
theorem predict_chain (env : Env R) (conv : Config.Str → R) (items : List Item) (training : Bool) (mode : Mode R)
    (classes : Nat) (f : Fields) (hok : ∀ i ∈ items, i.Ok) (hnl : ∀ i ∈ items, '\n' ∉ i.text)
    (hf : construct (linesOf (descriptionText items)) training = .done f) (t o : Tensor R)
    (he : evalAll env mode (netLayers 0 1 f classes items) t = .done o) :
    predict env conv (linesOf (descriptionText items)) training mode classes [t] = .done o := by
  unfold predict
  rw [hf, Outcome.bind_done]
  obtain ⟨st, h1, h2, h3, -⟩ := C56_layers conv 0 1 items f ⟨0, 0, false⟩ 1 classes false hok hnl
  rw [h1, Outcome.bind_done]
  simp only [Bool.false_eq_true, if_false, Nat.add_zero] at h2
  obtain ⟨vs, r1, r2, r3⟩ := values_chain env mode h2 h3 t _ 0 [] t o (Nat.zero_add _) rfl rfl he
  rw [List.drop_zero] at r1
  rw [r1, Outcome.bind_done]
  generalize hls : netLayers (0 : R) 1 f classes items = ls at *
  have hpos : 0 < ls.length := by
    rw [← hls]
    unfold netLayers
    simp only [List.length_append, List.length_singleton]
    omega
  obtain ⟨n, hn⟩ := Nat.exists_eq_succ_of_ne_zero (by omega : ls.length ≠ 0)
  have hl : ls[n]? = some ls[n] := List.getElem?_eq_getElem (by omega)
  have hv : vs[n]? = some o := by
    rw [hn] at r3
    unfold before tensorAt at r3
    simp only [hl] at r3
    rw [if_neg (by omega), if_pos ⟨by omega, trivial⟩, Nat.add_sub_cancel_left] at r3
    exact Outcome.ofOption_eq_done.1 r3
  rw [outputOf_last (n := n) (by omega) (by omega) hv]
  · rfl
  · intro k x hx
    have hk : k < ls.length := by
      have := (List.getElem?_eq_some_iff.1 hx).1
      omega
    rw [h3 k _ (List.getElem?_eq_getElem hk)] at hx
    rw [← Option.some.inj hx]
    show decide (k + 1 = ls.length) = _
    rw [hn]

end
end CN24.NetEval
