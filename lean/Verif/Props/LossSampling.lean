import Verif.Proof.LossSampling
import Verif.Props.NetTrain
import Verif.Props.Session

/-
Property theorems for C86: what loss sampling does to the loss that is reported and to the steps of training, on
average over the draws.
-/

namespace CN24.LossSampling
open CN24 CN24.Sampling CN24.Session CN24.Tensor CN24.NetConfig CN24.NetTrain CN24.Net Finset

/-- The input layer is about to deliver training samples. -/
structure Ready {H : Type _} (ds : Data ℝ) (Fit : Outputs ℝ → Prop) (st : Sampling.State ℝ (List ℝ × H)) : Prop where
  fit : Fit st.outs
  range : ∀ e ∈ st.perm, e < ds.training
  next : st.current < st.perm.length
  training : st.testing = false

section
variable {H : Type _}

/-- After batch number `k` (from 0), with the draws `l`, the layer's output tensors are `o`. -/
def Delivers (shuffle : H → List Nat → List Nat × H) (p : ℝ) (ds : Data ℝ) (batch : Nat)
    (st : Sampling.State ℝ (List ℝ × H)) (l : List ℝ) (k : Nat) (o : Outputs ℝ) : Prop :=
  ∃ t, Sampling.run (scripted shuffle) p ds batch (List.replicate (k + 1) .forward) { st with gen := (l, st.gen.2) } =
    .done t ∧ t.outs = o

theorem run_append (rnd : Random ℝ (List ℝ × H)) (p : ℝ) (ds : Data ℝ) (batch : Nat) : ∀ (a b : List Op)
    (st : Sampling.State ℝ (List ℝ × H)), Sampling.run rnd p ds batch (a ++ b) st =
      (Sampling.run rnd p ds batch a st).bind (Sampling.run rnd p ds batch b)
  | [], _, _ => rfl
  | .setTesting c :: a, b, st => run_append rnd p ds batch a b (setTestingMode c st)
  | .forward :: a, b, st => by
    show (feedForward rnd p ds batch st).bind (Sampling.run rnd p ds batch (a ++ b)) =
      ((feedForward rnd p ds batch st).bind (Sampling.run rnd p ds batch a)).bind (Sampling.run rnd p ds batch b)
    cases h : feedForward rnd p ds batch st with
    | done s => exact run_append rnd p ds batch a b s
    | fatal => rfl
    | undefined => rfl

theorem run_side {shuffle : H → List Nat → List Nat × H} (hrnd : ∀ g l, (shuffle g l).1.Perm l) {p : ℝ} {ds : Data ℝ}
    {batch : Nat} {Fit : Outputs ℝ → Prop} (ho : Overwrites ds batch Fit) (hfcn : ds.fcn = true) {l : List ℝ}
    {t u : Sampling.State ℝ (List ℝ × H)} (h : Side ds Fit l t u) : ∀ k : Nat,
    ∃ t' u', Sampling.run (scripted shuffle) p ds batch (List.replicate k .forward) t = .done t' ∧
      Sampling.run (scripted shuffle) p (unsampled ds) batch (List.replicate k .forward) u = .done u' ∧
      Side ds Fit (l.drop (k * batch * blocks u.outs.error.width u.outs.error.height)) t' u'
  | 0 => ⟨t, u, rfl, rfl, by rw [Nat.zero_mul, Nat.zero_mul]; exact h⟩
  | k + 1 => by
    obtain ⟨t1, u1, a1, a2, a3⟩ := run_side hrnd (p := p) ho hfcn h k
    obtain ⟨t2, u2, b1, b2, b3, -⟩ := feedForward_side hrnd (p := p) ho hfcn a3
    refine ⟨t2, u2, ?_, ?_, ?_⟩
    · rw [List.replicate_succ', run_append, a1]
      show (feedForward (scripted shuffle) p ds batch t1).bind _ = _
      rw [b1]; rfl
    · rw [List.replicate_succ', run_append, a2]
      show (feedForward (scripted shuffle) p (unsampled ds) batch u1).bind _ = _
      rw [b2]; rfl
    · have hsh := (ho.shape u.outs u1.outs h.fitR a3.fitR).2.2.2
      rw [List.drop_drop, ← hsh.2.1, ← hsh.2.2.1] at b3
      have e : k * batch * blocks u.outs.error.width u.outs.error.height +
          batch * blocks u.outs.error.width u.outs.error.height =
          (k + 1) * batch * blocks u.outs.error.width u.outs.error.height := by ring
      rw [e] at b3
      exact b3

/-- C86: with loss sampling every batch holds the images and labels it holds without, and the weights of whole blocks
of 12 x 12 pixels are zero, block after block according to the draws, through all samples and batches. -/
theorem C86_batches (shuffle : H → List Nat → List Nat × H) (hrnd : ∀ g l, (shuffle g l).1.Perm l) (p : ℝ)
    (ds : Data ℝ) (hfcn : ds.fcn = true) (batch : Nat) (Fit : Outputs ℝ → Prop) (ho : Overwrites ds batch Fit)
    (st : Sampling.State ℝ (List ℝ × H)) (hst : Ready ds Fit st) (k : Nat) :
    ∃ o, Delivers shuffle p (unsampled ds) batch st [] k o ∧ Fit o ∧
      ∀ l, ∃ o', Delivers shuffle p ds batch st l k o' ∧ Fit o' ∧ o'.data = o.data ∧ o'.label = o.label ∧
        o'.helper = o.helper ∧ ∀ x y m s, o.error.InRange x y m s → o'.error.get x y m s =
          if m = 0 ∧ p < l.getD ((k * batch + s) * ((o.error.height + 11) / 12 * ((o.error.width + 11) / 12)) +
            (y / 12 * ((o.error.width + 11) / 12) + x / 12)) 0 then some 0
          else o.error.get x y m s := by
  have side : ∀ l l' : List ℝ, Side ds Fit l { st with gen := (l, st.gen.2) } { st with gen := (l', st.gen.2) } :=
    fun l l' => ⟨rfl, rfl, rfl, rfl, hst.fit, hst.fit, hst.range, hst.next, hst.training, hst.training⟩
  have key : ∀ l l', ∃ t u, Sampling.run (scripted shuffle) p ds batch (List.replicate (k + 1) .forward)
        { st with gen := (l, st.gen.2) } = .done t ∧
      Sampling.run (scripted shuffle) p (unsampled ds) batch (List.replicate (k + 1) .forward)
        { st with gen := (l', st.gen.2) } = .done u ∧ Fit t.outs ∧ Fit u.outs ∧ t.outs.data = u.outs.data ∧
      t.outs.label = u.outs.label ∧ t.outs.helper = u.outs.helper ∧ ∀ x y m s, u.outs.error.InRange x y m s →
        t.outs.error.get x y m s = if m = 0 ∧ p < l.getD ((k * batch + s) * ((u.outs.error.height + 11) / 12 *
          ((u.outs.error.width + 11) / 12)) + (y / 12 * ((u.outs.error.width + 11) / 12) + x / 12)) 0 then some 0
          else u.outs.error.get x y m s := by
    intro l l'
    obtain ⟨t1, u1, a1, a2, a3⟩ := run_side hrnd (p := p) ho hfcn (side l l') k
    obtain ⟨t2, u2, b1, b2, b3, b4, b5, b6, b7⟩ := feedForward_side hrnd (p := p) ho hfcn a3
    refine ⟨t2, u2, ?_, ?_, b3.fitL, b3.fitR, b4, b5, b6, ?_⟩
    · rw [List.replicate_succ', run_append, a1]
      show (feedForward (scripted shuffle) p ds batch t1).bind _ = _
      rw [b1]; rfl
    · rw [List.replicate_succ', run_append, a2]
      show (feedForward (scripted shuffle) p (unsampled ds) batch u1).bind _ = _
      rw [b2]; rfl
    · intro x y m s hin
      have hsh := (ho.shape t2.outs u2.outs b3.fitL b3.fitR).2.2.2
      have hsh0 := (ho.shape st.outs u2.outs hst.fit b3.fitR).2.2.2
      have hlt : s < batch := by
        have := (ho.good.error _ b3.fitR).2.1
        have := hin.2.2.2
        omega
      rw [b7.error x y m s (hsh.inRange.1 hin) hlt, hsh.2.1, hsh.2.2.1]
      have e : (l.drop (k * batch * blocks st.outs.error.width st.outs.error.height)).getD
          (s * blocks u2.outs.error.width u2.outs.error.height +
            (y / 12 * ((u2.outs.error.width + 11) / 12) + x / 12)) 0 =
          l.getD ((k * batch + s) * ((u2.outs.error.height + 11) / 12 * ((u2.outs.error.width + 11) / 12)) +
            (y / 12 * ((u2.outs.error.width + 11) / 12) + x / 12)) 0 := by
        rw [List.getD_eq_getElem?_getD, List.getD_eq_getElem?_getD, List.getElem?_drop, hsh0.2.1, hsh0.2.2.1]
        congr 2
        unfold blocks
        ring
      exact if_congr (by rw [e]) rfl rfl
  obtain ⟨-, u, -, h2, -, h4, -⟩ := key [] []
  refine ⟨u.outs, ⟨u, h2, rfl⟩, h4, ?_⟩
  · intro l
    obtain ⟨t, u', k1, k2, k3, k4, k5, k6, k7, k8⟩ := key l []
    rw [h2] at k2
    cases k2
    exact ⟨t.outs, ⟨t, k1, rfl⟩, k3, k5, k6, k7, k8⟩

theorem delivers_unique {shuffle : H → List Nat → List Nat × H} {p : ℝ} {ds : Data ℝ} {batch : Nat}
    {st : Sampling.State ℝ (List ℝ × H)} {l : List ℝ} {k : Nat} {o o' : Outputs ℝ}
    (h : Delivers shuffle p ds batch st l k o) (h' : Delivers shuffle p ds batch st l k o') : o = o' := by
  obtain ⟨t, a, rfl⟩ := h
  obtain ⟨t', b, rfl⟩ := h'
  rw [a] at b
  cases b
  rfl

theorem vecOf_get {t : Tensor ℝ} {x y m s : Nat} {v : ℝ} (h : t.get x y m s = some v) :
    vecOf t (((s * t.maps + m) * t.height + y) * t.width + x) = v := by
  have e := val_of_get h
  unfold Tensor.val at e
  rw [offset_eq] at e
  exact e

/-- The average of a weight over all sequences of draws. -/
theorem mean_masked {shuffle : H → List Nat → List Nat × H} (hrnd : ∀ g l, (shuffle g l).1.Perm l) {p : ℝ}
    {ds : Data ℝ} (hfcn : ds.fcn = true) {batch : Nat} {Fit : Outputs ℝ → Prop} (ho : Overwrites ds batch Fit)
    {st : Sampling.State ℝ (List ℝ × H)} (hst : Ready ds Fit st) {values : List ℝ} (hv : values ≠ []) {n k : Nat}
    (hn : (k + 1) * batch * ((st.outs.error.height + 11) / 12 * ((st.outs.error.width + 11) / 12)) ≤ n)
    {o : Outputs ℝ} {O : List ℝ → Outputs ℝ} (h : Delivers shuffle p (unsampled ds) batch st [] k o)
    (hO : ∀ l, l.length = n → Delivers shuffle p ds batch st l k (O l)) {x y s : Nat} (hx : x < st.outs.error.width)
    (hy : y < st.outs.error.height) (hs : s < batch) :
    mean values n (fun l => vecOf (O l).error (((s * st.outs.error.maps + 0) * st.outs.error.height + y) *
        st.outs.error.width + x)) =
      share values p * vecOf o.error (((s * st.outs.error.maps + 0) * st.outs.error.height + y) *
        st.outs.error.width + x) := by
  obtain ⟨o₁, a1, a2, a3⟩ := C86_batches shuffle hrnd p ds hfcn batch Fit ho st hst k
  obtain rfl := delivers_unique h a1
  obtain ⟨w1, w2, w3⟩ := ho.good.error o a2
  have hsh := (ho.shape st.outs o hst.fit a2).2.2.2
  have hin : o.error.InRange x y 0 s := by
    obtain ⟨q1, q2, q3, q4⟩ := hsh
    exact ⟨by omega, by omega, w3, by omega⟩
  obtain ⟨v, hvv⟩ : ∃ v, o.error.get x y 0 s = some v := ⟨_, get_eq_val w1 hin⟩
  have hright := vecOf_get hvv
  rw [← hsh.2.1, ← hsh.2.2.1, ← hsh.2.2.2] at hright
  rw [hright]
  have hk : (k * batch + s) * ((o.error.height + 11) / 12 * ((o.error.width + 11) / 12)) +
      (y / 12 * ((o.error.width + 11) / 12) + x / 12) < n := by
    rw [← hsh.2.1, ← hsh.2.2.1]
    refine lt_of_lt_of_le ?_ hn
    have hb : y / 12 * ((st.outs.error.width + 11) / 12) + x / 12 <
        (st.outs.error.height + 11) / 12 * ((st.outs.error.width + 11) / 12) := radix_lt (by omega) (by omega)
    exact radix_lt (by rw [Nat.add_mul, Nat.one_mul]; omega) hb
  rw [← mean_weight hv p v hk]
  refine mean_congr fun l hl => ?_
  obtain ⟨o', b1, b2, b3, b4, b5, b6⟩ := a3 l
  obtain rfl := delivers_unique (hO l hl) b1
  have hsh' := (ho.shape st.outs (O l) hst.fit b2).2.2.2
  have hg := b6 x y 0 s hin
  rw [hvv] at hg
  rw [hsh'.2.1, hsh'.2.2.1, hsh'.2.2.2]
  by_cases hc : p < l.getD ((k * batch + s) * ((o.error.height + 11) / 12 * ((o.error.width + 11) / 12)) +
      (y / 12 * ((o.error.width + 11) / 12) + x / 12)) 0
  · rw [if_pos hc]
    rw [if_pos ⟨rfl, hc⟩] at hg
    exact vecOf_get hg
  · rw [if_neg hc]
    rw [if_neg fun q => hc q.2] at hg
    exact vecOf_get hg

end

/-! ### The network -/

section
variable {nodes : List (NewNode ℝ)} {ds : List Shape} {known : List (List Shape)}

/-- The buffers of a network with other weights at the data layer. -/
def reweight (w : Vec) (y : Nat → Nat → Vec) : Nat → Nat → Vec := fun n b => if n = 0 ∧ b = 3 then w else y n b

theorem reweight_plain {w : Vec} {y : Nat → Nat → Vec} {c : Conn} (h : Plain c) :
    reweight w y c.node c.buffer = y c.node c.buffer := if_neg fun q => by
      have := h q.1
      omega

theorem fed_reweight (hb : Built nodes) {n : NewNode ℝ} (hn : n ∈ nodes) (hl : ¬ IsError n.layer) (w : Vec)
    (y : Nat → Nat → Vec) : fed n (reweight w y) = fed n y := by
  have hp := (hb n hn).plain fun w' e => hl (by rw [e]; trivial)
  funext j
  unfold fed
  cases h : n.inputs[j]? with
  | none => rfl
  | some c => exact reweight_plain (hp c (List.mem_of_getElem? h))

theorem error_forward_zero (lowest w : ℝ) (ins outs : List Shape) (p : Vec) (x : Nat → Vec) :
    (layerSem lowest (.error w) ins outs).forward p x = 0 := by
  rcases ins with _ | ⟨a, _ | ⟨b, _ | ⟨c, _ | ⟨d, t⟩⟩⟩⟩ <;> rfl

theorem solves_reweight (hs : Sound ds nodes known) (hb : Built nodes) (lowest : ℝ) {data data' : Nat → Vec}
    (hd : ∀ b, b ≠ 3 → data' b = data b) {θ : Nat → Vec} {y : Nat → Nat → Vec}
    (h : Solves (graphOf nodes) (layersOf lowest nodes ds known data) θ y) :
    Solves (graphOf nodes) (layersOf lowest nodes ds known data') θ (reweight (data' 3) y) := by
  intro k hk
  have hy := h k hk
  rw [graph_nodes hs] at hk
  rcases node_cases hk with rfl | ⟨j, n, rfl, hn⟩
  · funext b
    have hy' : y 0 b = data b := by rw [hy]; rfl
    show (if (0 : Nat) = 0 ∧ b = 3 then data' 3 else y 0 b) = data' b
    by_cases e : b = 3
    · rw [if_pos ⟨rfl, e⟩, e]
    · rw [if_neg fun q => e q.2, hy', hd b e]
  · have e : reweight (data' 3) y (j + 1) = y (j + 1) := by
      funext b
      exact if_neg fun q => absurd q.1 (Nat.succ_ne_zero j)
    rw [e, hy, layersOf_succ lowest data hn, layersOf_succ lowest data' hn, inputData_fed hs hn, inputData_fed hs hn]
    by_cases hl : IsError n.layer
    · unfold IsError at hl
      split at hl
      · rename_i w hw
        rw [hw, error_forward_zero, error_forward_zero]
      · exact hl.elim
    · rw [fed_reweight hb (List.mem_of_getElem? hn) hl]

theorem regular_reweight (hb : Built nodes) {lowest : ℝ} {w : Vec} {y : Nat → Nat → Vec}
    (h : AllRegular lowest nodes ds known y) : AllRegular lowest nodes ds known (reweight w y) := by
  intro k n hn hd
  have hr := h k n hn hd
  by_cases hl : IsError n.layer
  · unfold IsError at hl
    split at hl
    · rename_i w' hw
      rw [hw]
      unfold Regular
      split <;> trivial
    · exact hl.elim
  · rw [fed_reweight hb (List.mem_of_getElem? hn) hl]
    exact hr

/-- The error of the network is linear in the weights. -/
theorem mean_error (hb : Built nodes) (hf : LabelsFit nodes ds known) {values : List ℝ} {n : Nat}
    {W : List ℝ → Vec} {w : Vec} {q : ℝ} {c : Shape} (hc : ds[3]? = some c)
    (hW : ∀ s, s < c.samples → ∀ y, y < c.height → ∀ x, x < c.width →
      mean values n (fun l => W l (((s * c.maps + 0) * c.height + y) * c.width + x)) =
        q * w (((s * c.maps + 0) * c.height + y) * c.width + x)) (y : Nat → Nat → Vec) :
    mean values n (fun l => networkError nodes ds known (reweight (W l) y)) =
      q * networkError nodes ds known (reweight w y) := by
  unfold networkError
  simp only [sum_nodes]
  rw [mean_sum, Finset.mul_sum]
  refine Finset.sum_congr rfl fun k hk => ?_
  have hk' := Finset.mem_range.1 hk
  have hn : nodes[k]? = some nodes[k] := List.getElem?_eq_getElem hk'
  generalize nodes[k] = nd at hn
  rw [hn]
  dsimp only
  have hmem := List.mem_of_getElem? hn
  by_cases hl : IsError nd.layer
  · obtain ⟨l, cs, o⟩ := nd
    dsimp only at hl
    cases l with
    | error lw =>
      obtain ⟨d, hpl, hcs⟩ := (hb _ hmem).error lw rfl
      dsimp only at hcs
      subst hcs
      obtain ⟨-, r1, r2, r3, r4⟩ := hf _ hmem trivial
      have e3 : shapeAt ds known ⟨0, 3, true⟩ = c := by
        unfold shapeAt
        rw [if_pos rfl, List.getD_eq_getElem?_getD, hc]
        rfl
      rw [e3] at r1 r2 r3 r4
      dsimp only
      rw [e3]
      have e0 : ∀ v : Vec, reweight v y 0 3 = v := fun v => if_pos ⟨rfl, rfl⟩
      have e1 : ∀ v : Vec, reweight v y 0 1 = y 0 1 := fun v => if_neg (by decide)
      simp only [reweight_plain hpl, e0, e1]
      unfold squaredError
      simp only [div_eq_inv_mul, mean_mul, mean_sum, Finset.mul_sum]
      refine Finset.sum_congr rfl fun s hs => Finset.sum_congr rfl fun m hm => Finset.sum_congr rfl fun yy hy =>
        Finset.sum_congr rfl fun x hx => ?_
      rw [Finset.mem_range] at hs hy hx
      have hh := hW s (by rw [r1]; exact hs) yy (by rw [r3]; exact hy) x (by rw [r2]; exact hx)
      generalize (y d.node d.buffer (((s * (shapeAt ds known d).maps + m) * (shapeAt ds known d).height + yy) *
        (shapeAt ds known d).width + x) - y 0 1 (((s * (shapeAt ds known d).maps + m) *
        (shapeAt ds known d).height + yy) * (shapeAt ds known d).width + x)) ^ 2 = A
      have : (fun l => A * W l (((s * c.maps + 0) * c.height + yy) * c.width + x) * lw) =
          fun l => (A * lw) * W l (((s * c.maps + 0) * c.height + yy) * c.width + x) := by
        funext l
        ring
      rw [this, mean_mul, hh]
      ring
    | _ => exact hl.elim
  · obtain ⟨l, cs, o⟩ := nd
    cases l with
    | error lw => exact absurd trivial hl
    | _ =>
      dsimp only
      rw [mean_zero, mul_zero]

end

/-! ### The theorems -/

/-- The tensors of the data layer as the network reads them (src/net/DatasetInputLayer.cpp:62-92). -/
def dataOf (o : Outputs ℝ) : Nat → Vec
  | 0 => vecOf o.data
  | 1 => vecOf o.label
  | 2 => vecOf o.helper
  | 3 => vecOf o.error
  | _ => 0

/-- Their shapes. -/
def shapesOf (o : Outputs ℝ) : List Shape := [o.data.shape, o.label.shape, o.helper.shape, o.error.shape]

section
variable {H : Type _}

/-- `B` batches of the same input layer: `O` without loss sampling, `T l` with, for the draws `l`. -/
structure Batches (shuffle : H → List Nat → List Nat × H) (p : ℝ) (d : Data ℝ) (batch : Nat) (Fit : Outputs ℝ → Prop)
    (s0 : Sampling.State ℝ (List ℝ × H)) (B n : Nat) (O : Nat → Outputs ℝ) (T : List ℝ → Nat → Outputs ℝ) : Prop where
  shuffles : ∀ g l, (shuffle g l).1.Perm l
  fcn : d.fcn = true
  overwrites : Overwrites d batch Fit
  ready : Ready d Fit s0
  enough : B * batch * ((s0.outs.error.height + 11) / 12 * ((s0.outs.error.width + 11) / 12)) ≤ n
  without : ∀ k, k < B → Delivers shuffle p (unsampled d) batch s0 [] k (O k)
  sampled : ∀ l, l.length = n → ∀ k, k < B → Delivers shuffle p d batch s0 l k (T l k)

variable {shuffle : H → List Nat → List Nat × H} {p : ℝ} {d : Data ℝ} {batch : Nat} {Fit : Outputs ℝ → Prop}
  {s0 : Sampling.State ℝ (List ℝ × H)} {B n : Nat} {O : Nat → Outputs ℝ} {T : List ℝ → Nat → Outputs ℝ}

theorem Batches.data (h : Batches shuffle p d batch Fit s0 B n O T) {l : List ℝ} (hl : l.length = n) {k : Nat}
    (hk : k < B) : ∀ b, b ≠ 3 → dataOf (T l k) b = dataOf (O k) b := by
  obtain ⟨o, a1, a2, a3⟩ := C86_batches shuffle h.shuffles p d h.fcn batch Fit h.overwrites s0 h.ready k
  obtain rfl := delivers_unique (h.without k hk) a1
  obtain ⟨o', b1, b2, b3, b4, b5, -⟩ := a3 l
  obtain rfl := delivers_unique (h.sampled l hl k hk) b1
  intro b hb
  match b with
  | 0 => exact congrArg vecOf b3
  | 1 => exact congrArg vecOf b4
  | 2 => exact congrArg vecOf b5
  | 3 => exact absurd rfl hb
  | _ + 4 => rfl

theorem Batches.weights (h : Batches shuffle p d batch Fit s0 B n O T) {values : List ℝ} (hv : values ≠ []) {k : Nat}
    (hk : k < B) : ∀ s, s < s0.outs.error.shape.samples → ∀ y, y < s0.outs.error.shape.height →
      ∀ x, x < s0.outs.error.shape.width →
      mean values n (fun l => dataOf (T l k) 3 (((s * s0.outs.error.shape.maps + 0) * s0.outs.error.shape.height + y) *
        s0.outs.error.shape.width + x)) = share values p * dataOf (O k) 3 (((s * s0.outs.error.shape.maps + 0) *
        s0.outs.error.shape.height + y) * s0.outs.error.shape.width + x) := by
  intro s hs y hy x hx
  have hsb : s < batch := by rw [← (h.overwrites.good.error _ h.ready.fit).2.1]; exact hs
  refine mean_masked h.shuffles h.fcn h.overwrites h.ready hv ?_ (h.without k hk)
    (fun l hl => h.sampled l hl k hk) hx hy hsb
  refine le_trans ?_ h.enough
  exact Nat.mul_le_mul_right _ (Nat.mul_le_mul_right _ hk)

theorem networkError_congr {nodes : List (NewNode ℝ)} {ds : List Shape} {known : List (List Shape)}
    (hs : Sound ds nodes known) {y z : Nat → Nat → Vec} (h : ∀ k ∈ order nodes, y k = z k) :
    networkError nodes ds known y = networkError nodes ds known z := by
  unfold networkError
  congr 1
  refine List.map_congr_left fun n hn => ?_
  obtain ⟨k, hk⟩ := List.mem_iff_getElem?.1 hn
  have hc : ∀ c ∈ n.inputs, y c.node = z c.node := by
    intro c hc
    refine h _ ?_
    rcases hs.conns hk c hc with ⟨h0, -⟩ | ⟨i, m, e, -, hm, -⟩
    · rw [h0, mem_order]; omega
    · rw [e]; exact succ_mem hm
  split
  · rename_i w p l u _ hi
    rw [hi] at hc
    rw [hc p (by simp), hc l (by simp), hc u (by simp)]
  · rfl

/-- C86: averaged over all draws, the loss that training a described network reports is the loss without loss sampling,
if the share of draws that keep a block is the probability given. -/
theorem C86_reported_loss (conv : Config.Str → ℝ) (zero one : ℝ) (f : Fields) (lines : List Config.Str)
    (classes : Nat) (loss : Bool) (st : NetConfig.State ℝ)
    (hadd : addLayers conv zero one f lines ⟨0, 0, true⟩ 1 classes loss = .done st) (known : List (List Shape))
    (hsh : shapes 0 1 (shapesOf s0.outs) st.nodes [] = .done known)
    (hf : LabelsFit st.nodes (shapesOf s0.outs) known) (hB : Batches shuffle p d batch Fit s0 B n O T)
    (values : List ℝ) (hv : values ≠ []) (lowest : ℝ) (θ : Nat → Vec) (Y : Nat → Nat → Nat → Vec)
    (hY : ∀ k, k < B → Solves (graphOf st.nodes) (layersOf lowest st.nodes (shapesOf s0.outs) known (dataOf (O k))) θ (Y k))
    (Z : List ℝ → Nat → Nat → Nat → Vec)
    (hZ : ∀ l, l.length = n → ∀ k, k < B → Solves (graphOf st.nodes)
      (layersOf lowest st.nodes (shapesOf s0.outs) known (dataOf (T l k))) θ (Z l k))
    (cfg : Trainer.Settings ℝ) (hp : cfg.lossSampling = p) (hp0 : p ≠ 0) (hshare : share values p = p) :
    mean values n (fun l => Trainer.reportedLoss cfg
        (∑ k ∈ range B, networkError st.nodes (shapesOf s0.outs) known (Z l k))) =
      Trainer.reportedLoss { cfg with lossSampling := 1 }
        (∑ k ∈ range B, networkError st.nodes (shapesOf s0.outs) known (Y k)) := by
  have hb := addLayers_built hadd
  generalize st.nodes = nodes at *
  have hs := sound_of (ds := shapesOf s0.outs) rfl hsh
  have huniq := fun data => C65_data_exist (netOf nodes) (order nodes) (wired hs) (acyclic hs)
    (layersOf lowest nodes (shapesOf s0.outs) known data) θ
  have hd : ∀ (o : Outputs ℝ) {y : Nat → Nat → Vec}, Solves (graphOf nodes) (layersOf lowest nodes (shapesOf s0.outs)
      known (dataOf o)) θ y → reweight (dataOf o 3) y = y := by
    intro o y h
    funext a b
    unfold reweight
    split
    · rename_i q
      rw [q.1, q.2, h 0 (by rw [graph_nodes hs, mem_order]; omega)]
      rfl
    · rfl
  have e1 : ∀ l, l.length = n → ∀ k, k < B → networkError nodes (shapesOf s0.outs) known (Z l k) =
      networkError nodes (shapesOf s0.outs) known (reweight (dataOf (T l k) 3) (Y k)) := by
    intro l hl k hk
    exact networkError_congr hs ((huniq _).2 _ _ (hZ l hl k hk)
      (solves_reweight hs hb lowest (hB.data hl hk) (hY k hk)))
  have e2 : mean values n (fun l => ∑ k ∈ range B, networkError nodes (shapesOf s0.outs) known (Z l k)) =
      p * ∑ k ∈ range B, networkError nodes (shapesOf s0.outs) known (Y k) := by
    rw [mean_sum, Finset.mul_sum]
    refine Finset.sum_congr rfl fun k hk => ?_
    have hk' := Finset.mem_range.1 hk
    rw [mean_congr fun l hl => e1 l hl k hk', mean_error hb hf (c := s0.outs.error.shape) rfl
      (hB.weights hv hk') (Y k), hd _ (hY k hk'), hshare]
  unfold Trainer.reportedLoss
  simp only [div_eq_inv_mul, mean_mul, e2]
  rw [hp]
  by_cases h1 : (cfg.sampleCount : ℝ) = 0
  · simp [h1]
  by_cases h2 : (cfg.sbatchsize : ℝ) = 0
  · simp [h2]
  field_simp

/-- The gradient that a forward and a backward pass leave for parameter `i` of node `m`, with given logs of the calls
and given contents of the buffers before. -/
noncomputable def gradient (lowest : ℝ) (nodes : List (NewNode ℝ)) (ds : List Shape) (known : List (List Shape))
    (g' : Graph) (flog : List Nat) (blog : List (Nat × Bool)) (data : Nat → Vec) (θ : Nat → Vec)
    (env : Nat → Nat → Vec) (st0 : Deltas) (m i : Nat) : ℝ :=
  (runBack g' (withAccumulation g' (order nodes) (layersOf lowest nodes ds known data)) θ
    (runLayers g' (layerForward (withAccumulation g' (order nodes) (layersOf lowest nodes ds known data)) θ)
      flog env) blog st0).grad m i

/-- C86: averaged over all draws, the gradient accumulated with loss sampling is the share of kept blocks times the
gradient without, and the data term of the step is that share, times the probability, times the one without.  What is
missing: the factor ought to be one. -/
theorem C86_step_partial (conv : Config.Str → ℝ) (zero one : ℝ) (f : Fields) (lines : List Config.Str)
    (classes : Nat) (loss : Bool) (st : NetConfig.State ℝ)
    (hadd : addLayers conv zero one f lines ⟨0, 0, true⟩ 1 classes loss = .done st) (known : List (List Shape))
    (hsh : shapes 0 1 (shapesOf s0.outs) st.nodes [] = .done known)
    (hf : LabelsFit st.nodes (shapesOf s0.outs) known) (hB : Batches shuffle p d batch Fit s0 B n O T)
    (values : List ℝ) (hv : values ≠ []) :
    ∃ g' N flog blog, (∀ fuel, 2 ≤ fuel → insertAll fuel (graphOf st.nodes) = some g') ∧
      (∀ fuel, N ≤ fuel → ∀ flags, ∃ v, feedForward g' fuel flags = some ⟨v, flog⟩) ∧
      (∀ fuel, N ≤ fuel → ∀ flags, ∃ v, backPropagate g' fuel flags = some ⟨v, blog⟩) ∧
      ∀ (lowest : ℝ) (θ : Nat → Vec) (m i : Nat), i < countsOf st.nodes (shapesOf s0.outs) known m →
        ∀ Y : Nat → ℝ → Nat → Nat → Vec,
        (∀ k, k < B → ∀ s, Solves (graphOf st.nodes) (layersOf lowest st.nodes (shapesOf s0.outs) known (dataOf (O k)))
          (nudge θ m i s) (Y k s)) →
        DownFirst st.nodes → AllRead st.nodes →
        (∀ k, k < B → AllRegular lowest st.nodes (shapesOf s0.outs) known (Y k 0)) →
        ∀ (env : List ℝ → Nat → Nat → Nat → Vec) (before : List ℝ → Nat → Deltas) (env0 : Nat → Nat → Nat → Vec)
          (before0 : Nat → Deltas),
          mean values n (fun l => ∑ k ∈ range B, gradient lowest st.nodes (shapesOf s0.outs) known g' flog blog
              (dataOf (T l k)) θ (env l k) (before l k) m i) =
            share values p * ∑ k ∈ range B, gradient lowest st.nodes (shapesOf s0.outs) known g' flog blog
              (dataOf (O k)) θ (env0 k) (before0 k) m i ∧
          ∀ (cfg : Trainer.Settings ℝ) (layerLr weight : ℝ), cfg.lossSampling = p →
            cfg.sampleCount * cfg.sbatchsize < 2 ^ 32 →
            mean values n (fun l => Trainer.direction cfg layerLr
              (∑ k ∈ range B, gradient lowest st.nodes (shapesOf s0.outs) known g' flog blog (dataOf (T l k)) θ
                (env l k) (before l k) m i) weight) =
              (p * share values p) * (layerLr * ((∑ k ∈ range B, gradient lowest st.nodes (shapesOf s0.outs) known g'
                flog blog (dataOf (O k)) θ (env0 k) (before0 k) m i) / ((cfg.sampleCount : ℝ) * cfg.sbatchsize))) +
              layerLr * (cfg.l2Weight * weight + cfg.l1Weight * SignType.sign weight) := by
  have hb := addLayers_built hadd
  obtain ⟨g', N, flog, blog, r1, r2, r3, -, r4⟩ := C85_gradient_partial conv zero one f lines classes loss st hadd
    (shapesOf s0.outs) rfl known hsh
  refine ⟨g', N, flog, blog, r1, r2, r3, ?_⟩
  generalize st.nodes = nodes at *
  have hs := sound_of (ds := shapesOf s0.outs) rfl hsh
  intro lowest θ m i hi Y hY hdown hread hreg env before env0 before0
  have hd : ∀ (o : Outputs ℝ) {θ' : Nat → Vec} {y : Nat → Nat → Vec}, Solves (graphOf nodes)
      (layersOf lowest nodes (shapesOf s0.outs) known (dataOf o)) θ' y → reweight (dataOf o 3) y = y := by
    intro o θ' y h
    funext a b
    unfold reweight
    split
    · rename_i q
      rw [q.1, q.2, h 0 (by rw [graph_nodes hs, mem_order]; omega)]
      rfl
    · rfl
  have key : mean values n (fun l => ∑ k ∈ range B, gradient lowest nodes (shapesOf s0.outs) known g' flog blog
        (dataOf (T l k)) θ (env l k) (before l k) m i) =
      share values p * ∑ k ∈ range B, gradient lowest nodes (shapesOf s0.outs) known g' flog blog
        (dataOf (O k)) θ (env0 k) (before0 k) m i := by
    rw [mean_sum, Finset.mul_sum]
    refine Finset.sum_congr rfl fun k hk => ?_
    have hk' := Finset.mem_range.1 hk
    have d0 := ((r4 lowest (dataOf (O k)) θ).2 (Y k) m i hi (hY k hk') hdown hread hf (hreg k hk') (env0 k)
      (before0 k)).2
    have dl : ∀ l, l.length = n → HasDerivAt (fun s => networkError nodes (shapesOf s0.outs) known
        (reweight (dataOf (T l k) 3) (Y k s))) (gradient lowest nodes (shapesOf s0.outs) known g' flog blog
        (dataOf (T l k)) θ (env l k) (before l k) m i) 0 := by
      intro l hl
      exact ((r4 lowest (dataOf (T l k)) θ).2 (fun s => reweight (dataOf (T l k) 3) (Y k s)) m i hi
        (fun s => solves_reweight hs hb lowest (hB.data hl hk') (hY k hk' s)) hdown hread hf
        (regular_reweight hb (hreg k hk')) (env l k) (before l k)).2
    have dm := mean_hasDerivAt (values := values) dl
    have e : (fun s => mean values n fun l => networkError nodes (shapesOf s0.outs) known
        (reweight (dataOf (T l k) 3) (Y k s))) = fun s => share values p *
          networkError nodes (shapesOf s0.outs) known (Y k s) := by
      funext s
      rw [mean_error hb hf (c := s0.outs.error.shape) rfl (hB.weights hv hk') (Y k s), hd _ (hY k hk' s)]
    rw [e] at dm
    exact dm.unique (d0.const_mul _)
  refine ⟨key, ?_⟩
  intro cfg layerLr weight hp hn
  have hdir : ∀ g : ℝ, Trainer.direction cfg layerLr g weight = layerLr * (cfg.lossSampling /
      ((cfg.sampleCount : ℝ) * cfg.sbatchsize)) * g +
      layerLr * (cfg.l2Weight * weight + cfg.l1Weight * SignType.sign weight) := by
    intro g
    unfold Trainer.direction Trainer.u32
    rw [Nat.mod_eq_of_lt hn]
    push_cast
    rw [show ((Trainer.sgn weight : Int) : ℝ) = (SignType.sign weight : ℝ) from ?_]
    · ring
    · unfold Trainer.sgn
      rcases lt_trichotomy weight 0 with h | h | h
      · rw [sign_neg h, if_neg (not_lt.2 h.le), if_pos h]; norm_num
      · rw [h, sign_zero, if_neg (lt_irrefl _)]; norm_num
      · rw [sign_pos h, if_pos h, if_neg (not_lt.2 h.le)]; norm_num
  simp only [hdir]
  rw [mean_add, mean_const hv, mean_mul, key, hp]
  ring

/-- C86, refuted for the steps: with a probability below one, every parameter whose gradient is not zero moves, on
average, otherwise than without loss sampling: the data term is the square of the probability times the one without.
The first hypothesis is what `C86_step_partial` shows for described networks. -/
theorem C86_step_shrinks (values : List ℝ) (hv : values ≠ []) (n : Nat) (acc : List ℝ → ℝ) (acc0 p : ℝ)
    (hacc : mean values n acc = share values p * acc0) (hshare : share values p = p) (hp : 0 < p) (hp1 : p < 1)
    (h0 : acc0 ≠ 0) (cfg : Trainer.Settings ℝ) (hcfg : cfg.lossSampling = p)
    (hn : cfg.sampleCount * cfg.sbatchsize < 2 ^ 32) (hpos : 0 < cfg.sampleCount * cfg.sbatchsize) (layerLr weight : ℝ)
    (hlr : layerLr ≠ 0) :
    mean values n (fun l => Trainer.direction cfg layerLr (acc l) weight) =
      Trainer.direction { cfg with lossSampling := 1 } layerLr (p ^ 2 * acc0) weight ∧
    mean values n (fun l => Trainer.direction cfg layerLr (acc l) weight) ≠
      Trainer.direction { cfg with lossSampling := 1 } layerLr acc0 weight := by
  have hN : ((cfg.sampleCount * cfg.sbatchsize : Nat) : ℝ) ≠ 0 := Nat.cast_ne_zero.2 (by omega)
  have e : mean values n (fun l => Trainer.direction cfg layerLr (acc l) weight) =
      Trainer.direction { cfg with lossSampling := 1 } layerLr (p ^ 2 * acc0) weight := by
    simp only [Props.direction_eq hn, Props.direction_eq (cfg := { cfg with lossSampling := 1 }) hn]
    have : (fun l => layerLr * (acc l / ((cfg.sampleCount * cfg.sbatchsize : Nat) : ℝ) * cfg.lossSampling) +
        layerLr * (cfg.l2Weight * weight + cfg.l1Weight * Props.sign weight)) =
        fun l => (layerLr * cfg.lossSampling / ((cfg.sampleCount * cfg.sbatchsize : Nat) : ℝ)) * acc l +
        layerLr * (cfg.l2Weight * weight + cfg.l1Weight * Props.sign weight) := by
      funext l
      ring
    rw [this, mean_add, mean_const hv, mean_mul, hacc, hshare, hcfg]
    ring
  refine ⟨e, ?_⟩
  rw [e]
  intro h
  simp only [Props.direction_eq (cfg := { cfg with lossSampling := 1 }) hn] at h
  have h1 := add_right_cancel h
  have h2 := mul_left_cancel₀ hlr h1
  rw [mul_one, mul_one] at h2
  have h3 := (div_left_inj' hN).1 h2
  have h4 : p ^ 2 = 1 := mul_right_cancel₀ h0 (by rw [h3, one_mul])
  nlinarith

/-- The batches exist for every tensor stream dataset whose pairs fit. -/
theorem C86_tensor_stream (shuffle : H → List Nat → List Nat × H) (hrnd : ∀ g l, (shuffle g l).1.Perm l) (p lowest : ℝ)
    (ef : Nat → Nat → Nat → Nat → ℝ) (ds : TensorStreamDataset.Dataset ℝ) (batch : Nat)
    (htrain : ∀ i, i < ds.training.length / 2 → ∃ image label, ds.training[2 * i]? = some image ∧
      ds.training[2 * i + 1]? = some label ∧ Props.PairFits ds lowest image label)
    (htest : ∀ i, i < ds.testing.length / 2 → ∃ image label, ds.testing[2 * i]? = some image ∧
      ds.testing[2 * i + 1]? = some label ∧ Props.PairFits ds lowest image label)
    (hpos : 0 < ds.training.length / 2) (seed : List ℝ × H) (outs : Outputs ℝ) (hf : Props.OutputsFit ds batch outs) (B : Nat) :
    ∃ n O T, Batches shuffle p (Props.ofTensorStream lowest ef ds) batch (Props.OutputsFit ds batch)
      (Sampling.construct (scripted shuffle) (Props.ofTensorStream lowest ef ds) seed outs) B n O T := by
  have ho := Props.C72_tensor_stream lowest ef ds batch htrain htest
  have hready : Ready (Props.ofTensorStream lowest ef ds) (Props.OutputsFit ds batch)
      (Sampling.construct (scripted shuffle) (Props.ofTensorStream lowest ef ds) seed outs) := by
    refine ⟨hf, ?_, ?_, rfl⟩
    · intro e he
      exact List.mem_range.1 ((hrnd seed.2 _).mem_iff.1 he)
    · show 0 < (shuffle seed.2 (List.range (ds.training.length / 2))).1.length
      rw [(hrnd seed.2 _).length_eq, List.length_range]
      exact hpos
  have h := C86_batches shuffle hrnd p (Props.ofTensorStream lowest ef ds) rfl batch (Props.OutputsFit ds batch) ho _ hready
  refine ⟨_, fun k => (h k).choose, fun l k => ((h k).choose_spec.2.2 l).choose, hrnd, rfl, ho, hready, le_refl _,
    fun k _ => (h k).choose_spec.1, fun l _ k _ => ((h k).choose_spec.2.2 l).choose_spec.1⟩

end

/-! ### Non-vacuity -/

/-- Draws that keep half of the blocks. -/
example : share [1 / 4, 3 / 4] (1 / 2 : ℝ) = 1 / 2 := by
  unfold share
  rw [List.filter_cons_of_pos (by norm_num), List.filter_cons_of_neg (by norm_num)]
  norm_num

/-- A gradient that depends on one block. -/
example : mean [1 / 4, 3 / 4] 2 (fun l => if (1 / 2 : ℝ) < l.getD 1 0 then 0 else 3) =
    share [1 / 4, 3 / 4] (1 / 2) * 3 := mean_weight (by simp) _ _ (by decide)

end CN24.LossSampling
