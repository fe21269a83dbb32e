import Verif.Spec.NetSplit
import Verif.Proof.NetBatch
import Verif.Props.NetTrain

/-
What a network computes for the parts of a batch, and the error of the parts.
-/

namespace CN24.NetSplit
open CN24 CN24.Tensor CN24.NetConfig CN24.Net CN24.NetBatch
open CN24.NetTrain (layerSem shapeAt Sound fed squaredError networkError layersOf)

/-! ### Layers -/

/-- The parameters of a layer in the form of the model of forward passes. -/
noncomputable def envAt (lowest : ℝ) (l : NetConfig.Layer ℝ) (ins : List Shape) (p : Vec) : Env ℝ where
  exp := Real.exp
  pow := fun a b => a ^ b
  lowest := lowest
  convolution := fun _ => match l, ins with
    | .conv q _ _ _, [a] => ⟨tensorOf ⟨q.outputMaps, q.kernelWidth, q.kernelHeight, a.maps / q.group⟩ p,
        tensorOf ⟨1, q.outputMaps, 1, 1⟩ fun i =>
          p (q.outputMaps * (a.maps / q.group) * q.kernelWidth * q.kernelHeight + i)⟩
    | _, _ => ⟨tensorOf ⟨0, 0, 0, 0⟩ p, tensorOf ⟨0, 0, 0, 0⟩ p⟩
  hmax := fun _ => (p 0, p 1)

/-- Training, with empty memory. -/
def training : Mode ℝ := ⟨false, fun _ _ => 0⟩

theorem fit_suits {lowest : ℝ} {l : NetConfig.Layer ℝ} {ins : List Shape} (h : Fit l ins)
    (hg : ∀ p d r w, l = .conv p d r w → 0 < p.group ∧ p.group ∣ p.outputMaps) (p : Vec) (ins' : List Shape)
    (hi : ins'.map Shape.maps = ins.map Shape.maps) :
    Suits (envAt lowest l ins' p) false l ins := by
  cases l with
  | conv q d r w =>
    rcases ins with _ | ⟨a, _ | ⟨b, t⟩⟩
    · exact trivial
    · rcases ins' with _ | ⟨a', _ | ⟨b, t⟩⟩
      · cases hi
      · have e : a'.maps = a.maps := by simpa using hi
        have h1 := tensorOf_is ⟨q.outputMaps, q.kernelWidth, q.kernelHeight, a'.maps / q.group⟩ p
        have h2 := tensorOf_is ⟨1, q.outputMaps, 1, 1⟩ fun i =>
          p (q.outputMaps * (a'.maps / q.group) * q.kernelWidth * q.kernelHeight + i)
        refine ⟨?_, h2, (hg q d r w rfl).2, Or.inr h⟩
        rw [← e]
        exact h1
      · simp at hi
    · exact trivial
  | _ => 
    rcases ins with _ | ⟨a, _ | ⟨b, _ | ⟨c, t⟩⟩⟩ <;> first | exact h | exact trivial

theorem blank_fill {R : Type _} (s : Shape) (v : R) :
    blank s (fun _ => v) = Tensor.fill s.samples s.width s.height s.maps v := by
  unfold blank Tensor.fill
  congr 1
  rw [List.map_const', List.length_range, Nat.mul_right_comm]

theorem sem1 (lowest : ℝ) {l : NetConfig.Layer ℝ} {a o : Shape} (e : l.outputs [a] = .done [o])
    {p : Vec} {x : Nat → Vec} {t : Tensor ℝ} {k : Nat}
    (h : forward (envAt lowest l [a] p) training k l [tensorOf a (x 0)] o = .done t) (b : Nat) :
    (layerSem lowest l [a] [o]).forward p x b = vecOf t := by
  cases l with
  | resize bx by' =>
    cases e
    have h := Outcome.ofOption_eq_done.1 h
    show vecOfOption (Layers.resizeForward bx by' _ _) = _
    exact congrArg vecOfOption h
  | conv q d r w =>
    obtain ⟨res, hi, e⟩ := bind_eq_done e
    cases res with
    | none => cases e
    | some res =>
      cases e
      obtain ⟨l1, h1, h⟩ := bind_eq_done h
      cases h
      show (match (convAt _ p x).feedForward false with
        | .done l1 => vecOf l1.output
        | _ => 0) = _
      have he : (convAt (NetTrain.convolution q r a ⟨a.samples, res.1, res.2, q.outputMaps⟩) p x).feedForward false =
          .done l1 := by
        rw [← h1]
        have hb : blank (⟨a.samples, res.1, res.2, q.outputMaps⟩ : Shape) (training.memory k) =
            Tensor.fill a.samples res.1 res.2 q.outputMaps 0 := blank_fill ⟨a.samples, res.1, res.2, q.outputMaps⟩ 0
        rw [hb]
        rfl
      rw [he]
  | lrn size alpha beta across =>
    cases e
    have h := Outcome.ofOption_eq_done.1 h
    exact congrArg vecOfOption h
  | maxPool kx ky =>
    have h := Outcome.ofOption_eq_done.1 h
    obtain ⟨res, hi, e⟩ := bind_eq_done e
    cases res with
    | none => cases e
    | some res =>
      cases e
      rw [blank_fill] at h
      exact congrArg vecOfOption h
  | downSample kx ky =>
    have h := Outcome.ofOption_eq_done.1 h
    exact congrArg vecOfOption h
  | advMaxPool kx ky sx sy =>
    have h := Outcome.ofOption_eq_done.1 h
    obtain ⟨res, hi, e⟩ := bind_eq_done e
    cases res with
    | none => cases e
    | some res =>
      dsimp only at e
      split at e
      · cases e
      · cases e
        rw [blank_fill] at h
        exact congrArg vecOfOption h
  | sigmoid =>
    cases e
    have h := Outcome.ofOption_eq_done.1 h
    exact congrArg vecOfOption h
  | hmax mu weight =>
    cases e
    have h := Outcome.ofOption_eq_done.1 h
    exact congrArg vecOfOption h
  | relu =>
    cases e
    have h := Outcome.ofOption_eq_done.1 h
    exact congrArg vecOfOption h
  | tanh =>
    cases e
    have h := Outcome.ofOption_eq_done.1 h
    exact congrArg vecOfOption h
  | upscale fx fy =>
    cases e
    have h := Outcome.ofOption_eq_done.1 h
    exact congrArg vecOfOption h
  | concat => cases e
  | sum => cases e
  | error weight => cases e

theorem sem2 (lowest : ℝ) {l : NetConfig.Layer ℝ} {a b o : Shape} (e : l.outputs [a, b] = .done [o])
    (hn : b.samples = a.samples) (hf : Fit l [a, b])
    {p : Vec} {x : Nat → Vec} {t : Tensor ℝ} {k : Nat}
    (h : forward (envAt lowest l [a, b] p) training k l [tensorOf a (x 0), tensorOf b (x 1)] o = .done t) (c : Nat) :
    (layerSem lowest l [a, b] [o]).forward p x c = vecOf t := by
  have ha : a = ⟨a.samples, a.width, a.height, a.maps⟩ := rfl
  have hb : b = ⟨a.samples, b.width, b.height, b.maps⟩ := by rw [← hn]
  rw [ha, hb] at e hf
  have hs : Suits (envAt lowest l [a, b] p) false l [⟨a.samples, a.width, a.height, a.maps⟩,
      ⟨a.samples, b.width, b.height, b.maps⟩] := by
    refine fit_suits hf ?_ p _ (by simp)
    rintro q d r w rfl
    cases e
  obtain ⟨hw, hh, m', ho, -, -⟩ := binary _ false l e hs
  cases l with
  | concat =>
    have : o = ⟨a.samples, a.width, a.height, a.maps + b.maps⟩ := by
      unfold Layer.outputs at e
      dsimp only at e
      split at e
      · cases e
      · split at e
        · cases e
          rename_i o' hc _
          unfold Layers.concatCreate at hc
          split at hc
          · cases hc
          · cases hc
            rw [← hh]
        · cases e
    subst this
    have h := Outcome.ofOption_eq_done.1 h
    have hb' : b = ⟨a.samples, a.width, a.height, b.maps⟩ := by rw [hb, hw, hh]
    rw [hb'] at h
    exact congrArg vecOfOption h
  | sum =>
    have hm : a.maps = b.maps ∧ o = ⟨a.samples, a.width, a.height, a.maps⟩ := by
      unfold Layer.outputs at e
      dsimp only at e
      cases hc : Layers.sumCreate ⟨a.samples, a.width, a.height, a.maps⟩ ⟨a.samples, b.width, b.height, b.maps⟩ with
      | none => rw [hc] at e; cases e
      | some o' =>
        rw [hc] at e
        obtain ⟨r, -, e⟩ := bind_eq_done e
        unfold Layers.sumCreate at hc
        split at hc
        · cases hc
        · split at hc
          · cases hc
          · rename_i hne
            cases hc
            split at e
            · cases e
              exact ⟨Decidable.not_not.1 hne, by rw [← hh]⟩
            · cases e
    obtain ⟨hm, rfl⟩ := hm
    have hb' : b = a := by rw [hb, ← hw, ← hh, ← hm]
    rw [hb'] at h
    show vecOfOption (match Layers.sumForward (tensorOf a (x 0)) (tensorOf a (x 1)) (buffer a) with
      | .done t => some t
      | _ => none) = _
    have h' : Layers.sumForward (tensorOf a (x 0)) (tensorOf a (x 1)) (buffer a) = .done t := h
    rw [h']
    rfl
  | _ => cases e

/-! ### Buffers and tensors -/

theorem part_offset {w h m r j : Nat} (x y c s : Nat) :
    j * (⟨r, w, h, m⟩ : Shape).elements + (((s * m + c) * h + y) * w + x) =
      (((j * r + s) * m + c) * h + y) * w + x := by
  unfold Shape.elements
  ring

/-- Parts of buffers in terms of pixels. -/
theorem part_iff {w h m r q j : Nat} (hj : j < q) {v v' : Vec} :
    IsPart j ⟨r, w, h, m⟩ v v' ↔ ∀ s, s < r → ∀ x y c, x < w → y < h → c < m →
      (tensorOf ⟨q * r, w, h, m⟩ v).val x y c (j * r + s) = (tensorOf ⟨r, w, h, m⟩ v').val x y c s := by
  have hlt : ∀ s, s < r → j * r + s < q * r := by
    intro s hs
    calc j * r + s < (j + 1) * r := by rw [Nat.succ_mul]; omega
      _ ≤ q * r := Nat.mul_le_mul_right _ hj
  constructor
  · intro h0 s hs x y c hx hy hc
    rw [NetTrain.tensorOf_val (sh := ⟨q * r, w, h, m⟩) v hx hy hc (hlt s hs),
      NetTrain.tensorOf_val (sh := ⟨r, w, h, m⟩) v' hx hy hc hs, ← part_offset, h0]
    have hin : (tensorOf ⟨r, w, h, m⟩ v').InRange x y c s := ⟨hx, hy, hc, hs⟩
    have := offset_lt _ hin
    rw [offset_eq, elements_shape] at this
    exact this
  · intro h0 i hi
    rw [← elements_shape _ v'] at hi
    obtain ⟨x, y, c, s, ⟨hx, hy, hc, hs⟩, rfl⟩ := offset_surj _ hi
    have := h0 s hs x y c hx hy hc
    rw [NetTrain.tensorOf_val (sh := ⟨q * r, w, h, m⟩) v hx hy hc (hlt s hs),
      NetTrain.tensorOf_val (sh := ⟨r, w, h, m⟩) v' hx hy hc hs] at this
    rw [offset_eq]
    show v' (((s * m + c) * h + y) * w + x) = v (j * _ + (((s * m + c) * h + y) * w + x))
    rw [part_offset, this]

/-- The same for tensors. -/
theorem part_tensors {w h m r q j : Nat} (hj : j < q) {t t' : Tensor ℝ} (ht : t.Is (q * r) w h m) (ht' : t'.Is r w h m) :
    IsPart j ⟨r, w, h, m⟩ (vecOf t) (vecOf t') ↔ ∀ s, s < r → ∀ x y c, x < w → y < h → c < m →
      t.val x y c (j * r + s) = t'.val x y c s := by
  rw [part_iff hj, tensorOf_vecOf (sh := ⟨q * r, w, h, m⟩) (sh_of_is (tensorOf_is _ _) ht) ht.2.2.2.2,
    tensorOf_vecOf (sh := ⟨r, w, h, m⟩) (sh_of_is (tensorOf_is _ _) ht') ht'.2.2.2.2]

/-! ### A layer and the parts of its inputs -/

theorem resized_self {n : Nat} {a : Shape} (h : a.samples = n) : a = ⟨n, a.width, a.height, a.maps⟩ := by rw [← h]

/-- A layer accepts the parts of its inputs. -/
theorem outputs_resized {l : NetConfig.Layer ℝ} {ins outs : List Shape} (e : l.outputs ins = .done outs)
    (hf : Fit l ins) (hg : ∀ p d r w, l = .conv p d r w → 0 < p.group ∧ p.group ∣ p.outputMaps) {n : Nat} (hn : 0 < n)
    (hi : ∀ a ∈ ins, a.samples = n) (r : Nat) :
    l.outputs (ins.map (resized r)) = .done (outs.map (resized r)) ∧ ∀ o ∈ outs, o.samples = n := by
  have hs := fit_suits (lowest := 0) hf hg 0 ins rfl
  match ins with
  | [] => cases l <;> cases e
  | [a] =>
    rw [resized_self (hi a (by simp))] at e
    rw [resized_self (hi a (by simp))] at hs
    obtain ⟨w', h', m', rfl, k1, -⟩ := unary _ false l e hs
    exact ⟨k1 r, fun o ho => by rw [List.mem_singleton.1 ho]⟩
  | [a, b] =>
    rw [resized_self (hi a (by simp)), resized_self (hi b (by simp))] at e
    rw [resized_self (hi a (by simp)), resized_self (hi b (by simp))] at hs
    obtain ⟨-, -, m', rfl, k1, -⟩ := binary _ false l e hs
    exact ⟨k1 r, fun o ho => by rw [List.mem_singleton.1 ho]⟩
  | [a, b, c] =>
    obtain ⟨rfl, k1⟩ := ternary l hn (hi a (by simp)) (hi b (by simp)) (hi c (by simp)) e
    exact ⟨k1 r, fun o ho => absurd ho List.not_mem_nil⟩
  | _ :: _ :: _ :: _ :: _ => cases l <;> cases e

theorem envAt_resized (lowest : ℝ) (l : NetConfig.Layer ℝ) (ins : List Shape) (p : Vec) (r : Nat) :
    envAt lowest l ins p = envAt lowest l (ins.map (resized r)) p := by
  cases l with
  | conv => rcases ins with _ | ⟨a, _ | ⟨b, t⟩⟩ <;> rfl
  | _ => rfl

/-- For the parts of its inputs, a layer computes the parts of its outputs. -/
theorem forward_parts (lowest : ℝ) {l : NetConfig.Layer ℝ} {ins outs : List Shape} (e : l.outputs ins = .done outs)
    (hf : Fit l ins) (hg : ∀ p d r w, l = .conv p d r w → 0 < p.group ∧ p.group ∣ p.outputMaps) {q r j : Nat}
    (hj : j < q) (hn : 0 < q * r) (hi : ∀ a ∈ ins, a.samples = q * r) {x x' : Nat → Vec}
    (hx : ∀ i a, ins[i]? = some a → IsPart j (resized r a) (x i) (x' i)) (p : Vec) :
    ∀ b o, outs[b]? = some o → IsPart j (resized r o) ((layerSem lowest l ins outs).forward p x b)
      ((layerSem lowest l (ins.map (resized r)) (outs.map (resized r))).forward p x' b) := by
  obtain ⟨e', -⟩ := outputs_resized e hf hg hn hi r
  have hlt : ∀ s, s < r → j * r + s < q * r := by
    intro s hs
    calc j * r + s < (j + 1) * r := by rw [Nat.succ_mul]; omega
      _ ≤ q * r := Nat.mul_le_mul_right _ hj
  match ins with
  | [] => cases l <;> cases e
  | [a] =>
    have hs := fit_suits (lowest := lowest) hf hg p [a] rfl
    have ha := hi a (by simp)
    obtain ⟨n, w, h, m⟩ := a
    obtain rfl : n = q * r := ha
    obtain ⟨w', h', m', rfl, k1, k2⟩ := unary _ false l e hs
    obtain ⟨G, g1, g2⟩ := k2 0
    obtain ⟨o, a1, a2, a3⟩ := g2 training (q * r) (tensorOf ⟨q * r, w, h, m⟩ (x 0)) rfl (tensorOf_is _ _)
    obtain ⟨o', b1, b2, b3⟩ := g2 training r (tensorOf ⟨r, w, h, m⟩ (x' 0)) rfl (tensorOf_is _ _)
    have hpart := (part_iff hj).1 (hx 0 _ rfl)
    intro b sh hb
    have hb0 : b = 0 := by
      have := (List.getElem?_eq_some_iff.1 hb).1
      simpa using this
    subst hb0
    obtain rfl : (⟨q * r, w', h', m'⟩ : Shape) = sh := by simpa using hb
    rw [envAt_resized lowest l _ p r] at b1
    have f1 := sem1 lowest e a1 0
    have f2 := sem1 lowest (k1 r) b1 0
    rw [f1]
    show IsPart j ⟨r, w', h', m'⟩ _ ((layerSem lowest l [⟨r, w, h, m⟩] [⟨r, w', h', m'⟩]).forward p x' 0)
    rw [f2]
    refine (part_tensors hj a2 b2).2 fun s hs x y c hx' hy hc => ?_
    rw [a3 x y c _ hx' hy hc (hlt s hs), b3 x y c s hx' hy hc hs]
    exact g1 _ _ (fun i k d hi hk hd => hpart s hs i k d hi hk hd) x y c hx' hy hc
  | [a, b] =>
    have hs := fit_suits (lowest := lowest) hf hg p [a, b] rfl
    have ha := hi a (by simp)
    have hb := hi b (by simp)
    obtain ⟨n, w, h, m⟩ := a
    obtain rfl : n = q * r := ha
    obtain ⟨n, w2, h2, m2⟩ := b
    obtain rfl : n = q * r := hb
    obtain ⟨rfl, rfl, m', rfl, k1, k2⟩ := binary _ false l e hs
    obtain ⟨G, g1, g2⟩ := k2 0
    obtain ⟨o, a1, a2, a3⟩ := g2 training (q * r) (tensorOf ⟨q * r, w, h, m⟩ (x 0)) (tensorOf ⟨q * r, w, h, m2⟩ (x 1))
      rfl (tensorOf_is _ _) (tensorOf_is _ _)
    obtain ⟨o', b1, b2, b3⟩ := g2 training r (tensorOf ⟨r, w, h, m⟩ (x' 0)) (tensorOf ⟨r, w, h, m2⟩ (x' 1))
      rfl (tensorOf_is _ _) (tensorOf_is _ _)
    have hp0 := (part_iff hj).1 (hx 0 _ rfl)
    have hp1 := (part_iff hj).1 (hx 1 _ rfl)
    intro b sh hb
    have hb0 : b = 0 := by
      have := (List.getElem?_eq_some_iff.1 hb).1
      simpa using this
    subst hb0
    obtain rfl : (⟨q * r, w, h, m'⟩ : Shape) = sh := by simpa using hb
    have hf' : Fit l [⟨r, w, h, m⟩, ⟨r, w, h, m2⟩] := by cases l <;> first | exact trivial | exact hf
    have f1 := sem2 lowest e rfl hf a1 0
    rw [envAt_resized lowest l _ p r] at b1
    have f2 := sem2 lowest (k1 r) rfl hf' b1 0
    rw [f1]
    show IsPart j ⟨r, w, h, m'⟩ _ ((layerSem lowest l [⟨r, w, h, m⟩, ⟨r, w, h, m2⟩] [⟨r, w, h, m'⟩]).forward p x' 0)
    rw [f2]
    refine (part_tensors hj a2 b2).2 fun s hs x y c hx' hy hc => ?_
    rw [a3 x y c _ hx' hy hc (hlt s hs), b3 x y c s hx' hy hc hs]
    exact g1 _ _ _ _ (fun i k d hi hk hd => hp0 s hs i k d hi hk hd) (fun i k d hi hk hd => hp1 s hs i k d hi hk hd)
      x y c hx' hy hc
  | [a, b, c] =>
    obtain ⟨rfl, -⟩ := ternary l hn (hi a (by simp)) (hi b (by simp)) (hi c (by simp)) e
    intro b o hb
    simp at hb
  | _ :: _ :: _ :: _ :: _ => cases l <;> cases e

/-! ### Sizes -/

theorem source_has {ds : List Shape} {known : List (List Shape)} {c : Conn} {s : Shape} :
    source 0 1 ds known c = .done s ↔ Has ds known c.node c.buffer s := by
  unfold source
  cases h : c.node with
  | zero =>
    rw [if_pos rfl, Outcome.ofOption_eq_done]
    exact Iff.rfl
  | succ k =>
    rw [if_neg (by omega), if_pos (by omega), Outcome.ofOption_eq_done, Option.bind_eq_some_iff, Nat.add_sub_cancel]
    exact Iff.rfl

theorem has_map {ds : List Shape} {known : List (List Shape)} {k b : Nat} {s : Shape} (h : Has ds known k b s)
    (f : Shape → Shape) : Has (ds.map f) (known.map (List.map f)) k b (f s) := by
  cases k with
  | zero =>
    show (ds.map f)[b]? = some (f s)
    rw [List.getElem?_map, show ds[b]? = some s from h]
    rfl
  | succ k =>
    obtain ⟨o, h1, h2⟩ := h
    refine ⟨o.map f, ?_, ?_⟩
    · rw [List.getElem?_map, h1]
      rfl
    · rw [List.getElem?_map, h2]
      rfl

theorem has_samples {ds : List Shape} {known : List (List Shape)} {n : Nat} (hd : ∀ a ∈ ds, a.samples = n)
    (hk : ∀ o ∈ known, ∀ a ∈ o, a.samples = n) {k b : Nat} {s : Shape} (h : Has ds known k b s) : s.samples = n := by
  cases k with
  | zero => exact hd s (List.mem_of_getElem? h)
  | succ k =>
    obtain ⟨o, h1, h2⟩ := h
    exact hk o (List.mem_of_getElem? h1) s (List.mem_of_getElem? h2)

theorem has_shapeAt {ds : List Shape} {known : List (List Shape)} {c : Conn} {s : Shape}
    (h : Has ds known c.node c.buffer s) : shapeAt ds known c = s := by
  unfold shapeAt
  cases hk : c.node with
  | zero =>
    rw [hk] at h
    rw [if_pos rfl, List.getD_eq_getElem?_getD, show ds[c.buffer]? = some s from h]
    rfl
  | succ k =>
    rw [hk] at h
    obtain ⟨o, h1, h2⟩ := h
    rw [if_neg (by omega), Nat.add_sub_cancel, List.getD_eq_getElem?_getD, List.getD_eq_getElem?_getD, h1,
      Option.getD_some, h2]
    rfl

theorem sources_map {ds : List Shape} {known : List (List Shape)} (f : Shape → Shape) :
    ∀ (cs : List Conn) (ins : List Shape), sources 0 1 ds known cs = .done ins →
      sources 0 1 (ds.map f) (known.map (List.map f)) cs = .done (ins.map f)
  | [], ins, h => by
    obtain rfl := Outcome.done.inj h
    rfl
  | c :: cs, ins, h => by
    obtain ⟨a, h1, h⟩ := bind_eq_done h
    obtain ⟨as, h2, h⟩ := bind_eq_done h
    obtain rfl := Outcome.done.inj h
    unfold sources
    rw [source_has.2 (has_map (source_has.1 h1) f), Outcome.bind_done, sources_map f cs as h2]
    rfl

theorem sources_samples {ds : List Shape} {known : List (List Shape)} {n : Nat} (hd : ∀ a ∈ ds, a.samples = n)
    (hk : ∀ o ∈ known, ∀ a ∈ o, a.samples = n) :
    ∀ (cs : List Conn) (ins : List Shape), sources 0 1 ds known cs = .done ins → ∀ a ∈ ins, a.samples = n
  | [], ins, h => by
    obtain rfl := Outcome.done.inj h
    intro a ha
    cases ha
  | c :: cs, ins, h => by
    obtain ⟨a, h1, h⟩ := bind_eq_done h
    obtain ⟨as, h2, h⟩ := bind_eq_done h
    obtain rfl := Outcome.done.inj h
    intro b hb
    rcases List.mem_cons.1 hb with rfl | hb
    · exact has_samples hd hk (source_has.1 h1)
    · exact sources_samples hd hk cs as h2 b hb

/-- The network accepts the parts of a batch; all tensors then have the shapes of parts. -/
theorem shapes_resized {ds : List Shape} {n : Nat} (hn : 0 < n) (hd : ∀ a ∈ ds, a.samples = n) (r : Nat) :
    ∀ (nodes : List (NewNode ℝ)) (known0 known : List (List Shape)), shapes 0 1 ds nodes known0 = .done known →
      (∀ m ∈ nodes, Fit m.layer (m.inputs.map (shapeAt ds known))) →
      (∀ m ∈ nodes, ∀ p d q w, m.layer = .conv p d q w → 0 < p.group ∧ p.group ∣ p.outputMaps) →
      (∀ o ∈ known0, ∀ a ∈ o, a.samples = n) →
      shapes 0 1 (ds.map (resized r)) nodes (known0.map (List.map (resized r))) =
        .done (known.map (List.map (resized r))) ∧ ∀ o ∈ known, ∀ a ∈ o, a.samples = n
  | [], known0, known, h, _, _, hk => by
    obtain rfl := Outcome.done.inj h
    exact ⟨rfl, hk⟩
  | m :: nodes, known0, known, h, hf, hg, hk => by
    obtain ⟨-, htake, -⟩ := NetTrain.shapes_spec (m :: nodes) _ _ h
    obtain ⟨ins, h1, h⟩ := bind_eq_done h
    obtain ⟨outs, h2, h⟩ := bind_eq_done h
    have hins : ins = m.inputs.map (shapeAt ds known) := by
      rw [← htake] at h1
      exact (NetTrain.sources_spec _ _ h1).1
    have hs := sources_samples hd hk _ _ h1
    obtain ⟨e, ho⟩ := outputs_resized h2 (by rw [hins]; exact hf m (by simp)) (hg m (by simp)) hn hs r
    obtain ⟨i1, i2⟩ := shapes_resized hn hd r nodes _ _ h (fun m hm => hf m (by simp [hm])) (fun m hm => hg m (by simp [hm]))
      (by
        intro o ho'
        rcases List.mem_append.1 ho' with h | h
        · exact hk o h
        · rw [List.mem_singleton.1 h]
          exact ho)
    refine ⟨?_, i2⟩
    unfold shapes
    rw [sources_map _ _ _ h1, Outcome.bind_done, e, Outcome.bind_done]
    rw [List.map_append] at i1
    exact i1

/-! ### Networks -/

section
variable {ds : List Shape} {nodes : List (NewNode ℝ)} {known : List (List Shape)}

/-- A connection leads to a tensor. -/
theorem conn_has (hs : Sound ds nodes known) {k : Nat} {n : NewNode ℝ} (hn : nodes[k]? = some n) {c : Conn}
    (hc : c ∈ n.inputs) : Has ds known c.node c.buffer (shapeAt ds known c) := by
  have : ∃ s, Has ds known c.node c.buffer s := by
    rcases hs.conns hn c hc with ⟨h0, hb⟩ | ⟨j, m, e, -, hm, hb⟩
    · rw [h0]
      exact ⟨ds[c.buffer]'(by rw [hs.four]; exact hb), List.getElem?_eq_getElem _⟩
    · rw [e]
      have hj : j < known.length := by rw [hs.length]; exact (List.getElem?_eq_some_iff.1 hm).1
      have hl := NetTrain.outputs_length (hs.ins hm) m.inputs m.isOutput
      have hg : known.getD j [] = known[j] := by rw [List.getD_eq_getElem?_getD, List.getElem?_eq_getElem hj]; rfl
      rw [hg] at hl
      exact ⟨known[j][c.buffer]'(by rw [hl]; exact hb), known[j], List.getElem?_eq_getElem hj, List.getElem?_eq_getElem _⟩
  obtain ⟨s, h⟩ := this
  rw [has_shapeAt h]
  exact h

theorem shapeAt_resized (hs : Sound ds nodes known) {k : Nat} {n : NewNode ℝ} (hn : nodes[k]? = some n) (r : Nat) :
    n.inputs.map (shapeAt (ds.map (resized r)) (known.map (List.map (resized r)))) =
      (n.inputs.map (shapeAt ds known)).map (resized r) := by
  rw [List.map_map]
  refine List.map_congr_left fun c hc => ?_
  exact has_shapeAt (has_map (conn_has hs hn hc) _)

theorem getD_resized (known : List (List Shape)) (k r : Nat) :
    (known.map (List.map (resized r))).getD k [] = (known.getD k []).map (resized r) := by
  rw [List.getD_eq_getElem?_getD, List.getElem?_map, List.getD_eq_getElem?_getD]
  cases known[k]? <;> rfl

/-- What the network computes for a part of the batch is the part of what it computes for the batch. -/
theorem values_parts (lowest : ℝ) (hs : Sound ds nodes known)
    (hf : AllFit nodes ds known)
    (hg : ∀ m ∈ nodes, ∀ p d q w, m.layer = .conv p d q w → 0 < p.group ∧ p.group ∣ p.outputMaps) {q r : Nat}
    (hn : 0 < q * r) (hd : ∀ a ∈ ds, a.samples = q * r) (hk : ∀ o ∈ known, ∀ a ∈ o, a.samples = q * r)
    {data : Nat → Vec} {part : Nat → Vec} {j : Nat} (hj : j < q)
    (hpart : ∀ b s, ds[b]? = some s → IsPart j (resized r s) (data b) (part b)) {θ : Nat → Vec}
    {y y' : Nat → Nat → Vec} (hy : Solves (NetTrain.graphOf nodes) (layersOf lowest nodes ds known data) θ y)
    (hy' : Solves (NetTrain.graphOf nodes) (layersOf lowest nodes (ds.map (resized r))
      (known.map (List.map (resized r))) part) θ y') :
    ∀ k b s, Has ds known k b s → IsPart j (resized r s) (y k b) (y' k b) := by
  intro k
  induction k using Nat.strong_induction_on with
  | _ k ih =>
  intro b s h
  have hmem : ∀ k, k ≤ nodes.length → k ∈ (NetTrain.graphOf nodes).nodes := by
    intro k hk
    rw [NetTrain.graph_nodes hs, NetTrain.mem_order]
    omega
  cases k with
  | zero =>
    rw [hy 0 (hmem 0 (by omega)), hy' 0 (hmem 0 (by omega))]
    exact hpart b s h
  | succ k =>
    obtain ⟨o, h1, h2⟩ := h
    have hk' : k < nodes.length := by rw [← hs.length]; exact (List.getElem?_eq_some_iff.1 h1).1
    have hn' : nodes[k]? = some nodes[k] := List.getElem?_eq_getElem hk'
    generalize nodes[k] = n at hn'
    have hnm := List.mem_of_getElem? hn'
    rw [hy (k + 1) (hmem _ (by omega)), hy' (k + 1) (hmem _ (by omega)), NetTrain.layersOf_succ _ _ hn',
      NetTrain.layersOf_succ _ _ hn', NetTrain.inputData_fed hs hn', NetTrain.inputData_fed hs hn',
      shapeAt_resized hs hn', getD_resized]
    have ho : known.getD k [] = o := by rw [List.getD_eq_getElem?_getD, h1]; rfl
    refine forward_parts lowest (hs.ins hn') (hf n hnm) (hg n hnm) hj hn ?_ ?_ _ b s (by rw [ho]; exact h2)
    · intro a ha
      obtain ⟨c, hc, rfl⟩ := List.mem_map.1 ha
      exact has_samples hd hk (conn_has hs hn' hc)
    · intro i a ha
      rw [List.getElem?_map] at ha
      obtain ⟨c, hc, rfl⟩ := Option.map_eq_some_iff.1 ha
      unfold fed
      rw [hc]
      have hcm := List.mem_of_getElem? hc
      refine ih c.node ?_ c.buffer _ (conn_has hs hn' hcm)
      rcases hs.conns hn' c hcm with ⟨h0, -⟩ | ⟨i', m, e, hlt, -, -⟩ <;> omega

/-! ### The error -/

theorem sum_split (f : Nat → ℝ) (r : Nat) : ∀ q, ∑ s ∈ Finset.range (q * r), f s =
    ∑ j ∈ Finset.range q, ∑ s ∈ Finset.range r, f (j * r + s)
  | 0 => by simp
  | q + 1 => by rw [Nat.succ_mul, Finset.sum_range_add, sum_split f r q, Finset.sum_range_succ]

theorem squaredError_parts (w : ℝ) {a c : Shape} {q r : Nat} (ha : a.samples = q * r) (hcw : c.width = a.width)
    (hch : c.height = a.height) (hcm : 0 < c.maps) {p l u : Vec} {p' l' u' : Nat → Vec}
    (hp : ∀ j, j < q → IsPart j (resized r a) p (p' j)) (hl : ∀ j, j < q → IsPart j (resized r a) l (l' j))
    (hu : ∀ j, j < q → IsPart j (resized r c) u (u' j)) :
    squaredError w a c p l u =
      ∑ j ∈ Finset.range q, squaredError w (resized r a) (resized r c) (p' j) (l' j) (u' j) := by
  unfold squaredError
  rw [ha, sum_split, Finset.sum_div]
  refine Finset.sum_congr rfl fun j hj => ?_
  have hj := Finset.mem_range.1 hj
  congr 1
  refine Finset.sum_congr rfl fun s hs => Finset.sum_congr rfl fun m hm => Finset.sum_congr rfl fun y hy =>
    Finset.sum_congr rfl fun x hx => ?_
  have hs := Finset.mem_range.1 hs
  have hm := Finset.mem_range.1 hm
  have hy := Finset.mem_range.1 hy
  have hx := Finset.mem_range.1 hx
  have lt : ∀ (b : Shape) (v : Vec) (m : Nat), b.width = a.width → b.height = a.height → m < b.maps →
      ((s * b.maps + m) * b.height + y) * b.width + x < (resized r b).elements := by
    intro b v m e1 e2 hm
    have hin : (tensorOf (resized r b) v).InRange x y m s := by
      refine ⟨?_, ?_, hm, hs⟩
      · show x < b.width
        rw [e1]; exact hx
      · show y < b.height
        rw [e2]; exact hy
    have := offset_lt _ hin
    rw [offset_eq, elements_shape] at this
    exact this
  have e1 := part_offset (w := a.width) (h := a.height) (m := a.maps) (r := r) (j := j) x y m s
  have e2 := part_offset (w := c.width) (h := c.height) (m := c.maps) (r := r) (j := j) x y 0 s
  rw [← e1, ← e2]
  have h1 := hp j hj _ (lt a p m rfl rfl hm)
  have h2 := hl j hj _ (lt a p m rfl rfl hm)
  have h3 := hu j hj _ (lt c p 0 hcw hch hcm)
  show _ = (p' j (((s * a.maps + m) * a.height + y) * a.width + x) -
    l' j (((s * a.maps + m) * a.height + y) * a.width + x)) ^ 2 * u' j (((s * c.maps + 0) * c.height + y) * c.width + x) * w
  rw [h1, h2, h3]
  rfl

theorem list_sum_comm {α : Type _} (f : α → Nat → ℝ) (q : Nat) : ∀ l : List α,
    (l.map fun a => ∑ j ∈ Finset.range q, f a j).sum = ∑ j ∈ Finset.range q, (l.map fun a => f a j).sum
  | [] => by simp
  | a :: l => by
    simp only [List.map_cons, List.sum_cons]
    rw [list_sum_comm f q l, Finset.sum_add_distrib]

/-- The error of a batch is the sum of the errors of its parts. -/
theorem networkError_parts (hs : Sound ds nodes known) (hl : NetTrain.LabelsFit nodes ds known) {q r : Nat}
    (hd : ∀ a ∈ ds, a.samples = q * r) (hk : ∀ o ∈ known, ∀ a ∈ o, a.samples = q * r) {y : Nat → Nat → Vec}
    {y' : Nat → Nat → Nat → Vec}
    (h : ∀ j, j < q → ∀ k b s, Has ds known k b s → IsPart j (resized r s) (y k b) (y' j k b)) :
    networkError nodes ds known y = ∑ j ∈ Finset.range q,
      networkError nodes (ds.map (resized r)) (known.map (List.map (resized r))) (y' j) := by
  unfold networkError
  rw [← list_sum_comm]
  congr 1
  refine List.map_congr_left fun n hn => ?_
  have hc := hl n hn
  obtain ⟨k, hk', hk2⟩ := List.getElem_of_mem hn
  have hn' : nodes[k]? = some n := by rw [List.getElem?_eq_getElem hk', hk2]
  have hh := fun c hc => conn_has hs hn' (c := c) hc
  obtain ⟨l, cs, o⟩ := n
  cases l with
  | error w =>
    have hc := hc trivial
    rcases cs with _ | ⟨p, _ | ⟨l, _ | ⟨u, _ | ⟨v, t⟩⟩⟩⟩
    · exact hc.elim
    · exact hc.elim
    · exact hc.elim
    · obtain ⟨c1, -, c3, c4, c5⟩ := hc
      have hp := hh p (by simp)
      have hl := hh l (by simp)
      have hu := hh u (by simp)
      dsimp only
      rw [c1] at hl
      have := squaredError_parts w (a := shapeAt ds known p) (c := shapeAt ds known u) (has_samples hd hk hp) c3 c4 c5
        (fun j hj => h j hj _ _ _ hp) (fun j hj => h j hj _ _ _ hl) (fun j hj => h j hj _ _ _ hu)
      rw [this]
      refine Finset.sum_congr rfl fun j _ => ?_
      rw [has_shapeAt (has_map hp _), has_shapeAt (has_map hu _)]
    · exact hc.elim
  | _ => simp

/-! ### Where the layers can be differentiated -/

theorem noTies_parts {kx ky sx sy ow oh w h m q r j : Nat} (hj : j < q) {v v' : Vec}
    (hin : Inside kx ky sx sy ow oh ⟨q * r, w, h, m⟩) (hp : IsPart j ⟨r, w, h, m⟩ v v')
    (ht : NoTies kx ky sx sy ow oh ⟨q * r, w, h, m⟩ v) : NoTies kx ky sx sy ow oh ⟨r, w, h, m⟩ v' := by
  intro ox oy c s hx hy hc hs
  have hlt : j * r + s < q * r := by
    have hs : s < r := hs
    calc j * r + s < (j + 1) * r := by rw [Nat.succ_mul]; omega
      _ ≤ q * r := Nat.mul_le_mul_right _ hj
  obtain ⟨a, b, ha, hb, hmax⟩ := ht ox oy c (j * r + s) hx hy hc hlt
  have he := (part_iff hj).1 hp s hs
  have h1 := hin.1 ox hx
  have h2 := hin.2 oy hy
  dsimp only at h1 h2
  refine ⟨a, b, ha, hb, fun i' j' hi' hj' hne => ?_⟩
  have := hmax i' j' hi' hj' hne
  rw [he _ _ _ (by omega) (by omega) hc, he _ _ _ (by omega) (by omega) hc] at this
  exact this

theorem part_all {P : ℝ → Prop} {a : Shape} {q r j : Nat} (hj : j < q) (ha : a.samples = q * r) {v v' : Vec}
    (hp : IsPart j (resized r a) v v') (h : ∀ i < a.elements, P (v i)) : ∀ i < (resized r a).elements, P (v' i) := by
  intro i hi
  rw [hp i hi]
  refine h _ ?_
  have he : a.elements = q * (resized r a).elements := by
    unfold resized Shape.elements
    rw [ha]
    ring
  rw [he]
  calc j * (resized r a).elements + i < (j + 1) * (resized r a).elements := by rw [Nat.succ_mul]; omega
    _ ≤ q * (resized r a).elements := Nat.mul_le_mul_right _ hj

theorem regular_parts {lowest : ℝ} {l : NetConfig.Layer ℝ} {ins outs : List Shape} (e : l.outputs ins = .done outs)
    {wanted : Bool} {q r j : Nat} (hj : j < q) (hi : ∀ a ∈ ins, a.samples = q * r) {x x' : Nat → Vec}
    (hx : ∀ i a, ins[i]? = some a → IsPart j (resized r a) (x i) (x' i))
    (h : NetTrain.Regular lowest l ins outs wanted x) :
    NetTrain.Regular lowest l (ins.map (resized r)) (outs.map (resized r)) wanted x' := by
  match ins with
  | [] => cases l <;> cases e
  | [a] =>
    have hp := hx 0 a rfl
    have ha := hi a (by simp)
    cases l with
    | maxPool kx ky =>
      obtain ⟨res, hc, e⟩ := bind_eq_done e
      cases res with
      | none => cases e
      | some res =>
        cases e
        obtain ⟨h1, h2, h3, h4⟩ := h
        refine ⟨h1, h2, part_all hj ha hp h3, ?_⟩
        have hk : 0 < kx ∧ 0 < ky := by
          unfold Pooling.createOutputs at hc
          constructor
          · rcases Nat.eq_zero_or_pos kx with h0 | h0
            · rw [if_pos h0] at hc; cases hc
            · exact h0
          · rcases Nat.eq_zero_or_pos ky with h0 | h0
            · split at hc
              · cases hc
              split at hc
              · cases hc
              cases hc
            · exact h0
        have hdim := ((Props.C36_max_pooling kx ky a.width a.height hk.1 hk.2).1 res.1 res.2).1 hc
        have ha' : a = ⟨q * r, a.width, a.height, a.maps⟩ := by rw [← ha]
        refine noTies_parts hj ⟨fun ox hox => ?_, fun oy hoy => ?_⟩ hp (by rw [← ha']; exact h4)
        · calc ox * kx + kx = (ox + 1) * kx := (Nat.succ_mul _ _).symm
            _ ≤ res.1 * kx := Nat.mul_le_mul_right _ hox
            _ = a.width := hdim.1.symm
        · calc oy * ky + ky = (oy + 1) * ky := (Nat.succ_mul _ _).symm
            _ ≤ res.2 * ky := Nat.mul_le_mul_right _ hoy
            _ = a.height := hdim.2.symm
    | advMaxPool kx ky sx sy =>
      obtain ⟨res, hc, e⟩ := bind_eq_done e
      cases res with
      | none => cases e
      | some res =>
        dsimp only at e
        split at e
        · cases e
        · cases e
          obtain ⟨h1, h2, h3, h4, h5, h6⟩ := h
          have ha' : a = ⟨q * r, a.width, a.height, a.maps⟩ := by rw [← ha]
          exact ⟨h1, h2, h3, h4, part_all hj ha hp h5, noTies_parts hj h3 hp (by rw [← ha']; exact h6)⟩
    | relu => exact part_all (P := fun v => v ≠ 0) hj ha hp h
    | conv p d t w => rcases outs with _ | ⟨o, _ | ⟨o2, t⟩⟩ <;> exact h
    | lrn => rcases outs with _ | ⟨o, _ | ⟨o2, t⟩⟩ <;> exact h
    | hmax => exact h.elim
    | _ => trivial
  | [a, b] =>
    cases l with
    | concat => exact h
    | sum => exact congrArg (resized r) h
    | _ => cases e
  | [a, b, c] =>
    cases l with
    | error => exact trivial
    | _ => cases e
  | _ :: _ :: _ :: _ :: _ => cases l <;> cases e

end

end CN24.NetSplit
