import Verif.Model.NetSplit
import Verif.Proof.Trainer

/-
The accumulation of gradients in parts.
-/

namespace CN24.Trainer
open CN24
variable {R : Type _} [Field R] [LinearOrder R]

/-- Two lists of buffers with the same elements. -/
theorem ext2 {a b : List (List R)} (hl : a.map List.length = b.map List.length)
    (h : ∀ i j, at2 a i j = at2 b i j) : a = b := by
  have hlen : a.length = b.length := by simpa using congrArg List.length hl
  refine List.ext_getElem hlen fun i h1 h2 => ?_
  have hli : a[i].length = b[i].length := by
    have := congrArg (fun l => l[i]?) hl
    simp only [List.getElem?_map, List.getElem?_eq_getElem h1, List.getElem?_eq_getElem h2] at this
    simpa using this
  refine List.ext_getElem hli fun j k1 k2 => ?_
  have := h i j
  unfold at2 rd at this
  rw [List.getElem?_eq_getElem h1, List.getElem?_eq_getElem h2, Option.bind_some, Option.bind_some,
    List.getElem?_eq_getElem k1, List.getElem?_eq_getElem k2] at this
  exact Option.some.inj this

theorem fold_frame (grads : List (List (List R))) : ∀ (cs : List Cell) (acc acc' : List (List R)),
    cs.foldlM (fun acc c => (at2 acc c.flat c.elem).bind fun a =>
        (at3 grads c.node c.param c.elem).bind fun g => set2 acc c.flat c.elem (a + g)) acc = some acc' →
    acc'.map List.length = acc.map List.length ∧
      ∀ i j, (∀ c ∈ cs, ¬ (c.flat = i ∧ c.elem = j)) → at2 acc' i j = at2 acc i j
  | [], acc, acc', h => by
    obtain rfl := Option.some.inj h
    exact ⟨rfl, fun _ _ _ => rfl⟩
  | c :: cs, acc, acc', h => by
    rw [List.foldlM_cons] at h
    obtain ⟨acc1, h1, h⟩ := Option.bind_eq_some_iff.1 h
    obtain ⟨a, -, h1⟩ := Option.bind_eq_some_iff.1 h1
    obtain ⟨g, -, h1⟩ := Option.bind_eq_some_iff.1 h1
    obtain ⟨k1, k2⟩ := fold_frame grads cs acc1 acc' h
    refine ⟨k1.trans (set2_lengths h1), fun i j hij => ?_⟩
    rw [k2 i j fun d hd => hij d (List.mem_cons_of_mem _ hd), at2_set2 h1, if_neg]
    exact fun e => hij c (by simp) ⟨e.1.symm, e.2.symm⟩

/-- The accumulation only changes the elements of parameters. -/
theorem accumulate_frame {grads : List (List (List R))} {acc acc' : List (List R)}
    (h : accumulate grads acc = some acc') : acc'.map List.length = acc.map List.length ∧
      ∀ i j, (∀ c ∈ cells (sizes grads), ¬ (c.flat = i ∧ c.elem = j)) → at2 acc' i j = at2 acc i j := by
  rw [accumulate, visit_eq] at h
  exact fold_frame grads _ _ _ h

theorem loop_frame {sz : List (List Nat)} (grads : Nat → List (List (List R))) : ∀ (n : Nat) (acc acc' : List (List R)),
    (∀ b, b < n → sizes (grads b) = sz) → forLoop n (fun b acc => accumulate (grads b) acc) acc = some acc' →
    acc'.map List.length = acc.map List.length ∧
      ∀ i j, (∀ c ∈ cells sz, ¬ (c.flat = i ∧ c.elem = j)) → at2 acc' i j = at2 acc i j
  | 0, acc, acc', _, h => by
    obtain rfl := Option.some.inj h
    exact ⟨rfl, fun _ _ _ => rfl⟩
  | n + 1, acc, acc', hsz, h => by
    rw [forLoop_succ] at h
    obtain ⟨acc1, h1, h⟩ := Option.bind_eq_some_iff.1 h
    obtain ⟨k1, k2⟩ := loop_frame grads n acc acc1 (fun b hb => hsz b (by omega)) h1
    obtain ⟨j1, j2⟩ := accumulate_frame h
    rw [hsz n (by omega)] at j2
    exact ⟨j1.trans k1, fun i j hij => (j2 i j hij).trans (k2 i j hij)⟩

/-- Accumulating the gradients of parts gives what accumulating the gradients of the whole gives. -/
theorem accumulate_parts {sz : List (List Nat)} (whole part : Nat → List (List (List R))) (n m : Nat)
    {acc : List (List R)} (hw : ∀ b, b < n → sizes (whole b) = sz) (hp : ∀ b, b < m → sizes (part b) = sz)
    (h : Covers sz acc) (h0 : ∀ c ∈ cells sz, at2 acc c.flat c.elem = some 0)
    (he : ∀ c ∈ cells sz, ∑ b ∈ Finset.range n, (at3 (whole b) c.node c.param c.elem).getD 0 =
      ∑ b ∈ Finset.range m, (at3 (part b) c.node c.param c.elem).getD 0) :
    forLoop n (fun b acc => accumulate (whole b) acc) acc = forLoop m (fun b acc => accumulate (part b) acc) acc := by
  obtain ⟨a, a1, -, a3⟩ := accumulate_loop whole n hw h h0
  obtain ⟨b, b1, -, b3⟩ := accumulate_loop part m hp h h0
  obtain ⟨f1, f2⟩ := loop_frame whole n acc a hw a1
  obtain ⟨g1, g2⟩ := loop_frame part m acc b hp b1
  rw [a1, b1]
  congr 1
  refine ext2 (f1.trans g1.symm) fun i j => ?_
  by_cases hc : ∃ c ∈ cells sz, c.flat = i ∧ c.elem = j
  · obtain ⟨c, hc, rfl, rfl⟩ := hc
    rw [a3 c hc, b3 c hc, he c hc]
  · have hc' : ∀ c ∈ cells sz, ¬ (c.flat = i ∧ c.elem = j) := fun c h1 h2 => hc ⟨c, h1, h2⟩
    rw [f2 i j hc', g2 i j hc']

/-- The settings with another number of label pixels in a batch and another number of batches. -/
def resplit (cfg : Settings R) (sampleCount sbatchsize : Nat) : Settings R :=
  { cfg with sampleCount := sampleCount, sbatchsize := sbatchsize }

theorem apply_resplit (cfg : Settings R) {c s : Nat} (h : c * s = cfg.sampleCount * cfg.sbatchsize) (lr : R)
    (localLr : List R) (st : State R) :
    applyGradients (resplit cfg c s) lr localLr st = applyGradients cfg lr localLr st := by
  unfold applyGradients
  congr 1
  funext cell st
  unfold updateWeight direction resplit
  dsimp only
  rw [h]

/-- Training in parts: if every iteration leaves the same sums of gradients, the weights are the same. -/
theorem iterate_resplit (cfg : Settings R) {c s : Nat} (h : c * s = cfg.sampleCount * cfg.sbatchsize) (lr : Nat → R)
    (localLr : List R) (whole part : List (List (List R)) → Nat → List (List (List R)))
    (hw : ∀ ws k, sizes (whole ws k) = sizes ws) (hp : ∀ ws k, sizes (part ws k) = sizes ws) (st : State R)
    (hfit : Aligned localLr st) : ∀ n,
    (∀ i st', i < n → iterate cfg lr localLr whole i st = some st' → sizes st'.weights = sizes st.weights →
      ∀ cell ∈ cells (sizes st'.weights),
      ∑ b ∈ Finset.range cfg.sbatchsize, (at3 (whole st'.weights (i * cfg.sbatchsize + b)) cell.node cell.param cell.elem).getD 0 =
      ∑ b ∈ Finset.range s, (at3 (part st'.weights (i * s + b)) cell.node cell.param cell.elem).getD 0) →
    ∃ st', iterate cfg lr localLr whole n st = some st' ∧ iterate (resplit cfg c s) lr localLr part n st = some st' ∧
      Aligned localLr st' ∧ sizes st'.weights = sizes st.weights
  | 0, _ => ⟨st, rfl, rfl, hfit, rfl⟩
  | n + 1, he => by
    obtain ⟨st1, h1, h2, h3, h4⟩ := iterate_resplit cfg h lr localLr whole part hw hp st hfit n
      (fun i st' hi => he i st' (by omega))
    obtain ⟨st2, k1, k2, k3, -⟩ := iteration_spec (cfg := cfg) (lr n) h3
      (fun b => whole st1.weights (n * cfg.sbatchsize + b)) (fun b _ => hw _ _)
    refine ⟨st2, ?_, ?_, k2, k3.trans h4⟩
    · unfold iterate at h1 ⊢
      rw [forLoop_succ, h1]
      exact k1
    · unfold iterate at h2 ⊢
      rw [forLoop_succ, h2, Option.bind_some]
      show (forLoop s (fun b acc => accumulate (part st1.weights (n * s + b)) acc) (clearAll st1.accumulated)).bind
        (fun acc => applyGradients (resplit cfg c s) (lr n) localLr { st1 with accumulated := acc }) = _
      rw [← accumulate_parts (acc := clearAll st1.accumulated) (sz := sizes st1.weights) (fun b => whole st1.weights (n * cfg.sbatchsize + b))
        (fun b => part st1.weights (n * s + b)) cfg.sbatchsize s (fun b _ => hw _ _) (fun b _ => hp _ _)
        (covers_clearAll h3.acc) (by
          intro c hc
          obtain ⟨a, k⟩ := Option.isSome_iff_exists.1 (h3.acc c hc)
          rw [at2_clearAll, k]; rfl) (he n st1 (by omega) h1 h4)]
      simp only [apply_resplit cfg h]
      exact k1

end CN24.Trainer

namespace CN24.NetSplit
open CN24 CN24.Net CN24.Trainer

theorem cut_lengths (v : Vec) : ∀ (bs : List (List ℝ)) (start : Nat),
    (cut bs start v).map List.length = bs.map List.length
  | [], _ => rfl
  | b :: bs, start => by
    unfold cut
    rw [List.map_cons, List.map_cons, cut_lengths v bs, List.length_map, List.length_range]

theorem sizes_gradsOf (ws : List (List (List ℝ))) (G : Nat → Vec) : sizes (gradsOf ws G) = sizes ws := by
  unfold sizes gradsOf
  refine List.ext_getElem? fun i => ?_
  rw [List.getElem?_map, List.getElem?_mapIdx, List.getElem?_map]
  cases ws[i]? with
  | none => rfl
  | some b => exact congrArg some (cut_lengths (G i) b 0)

theorem at2_cut : ∀ (bs : List (List ℝ)) (start p e : Nat) (w : ℝ), at2 bs p e = some w →
    bs.flatten[((bs.take p).map List.length).sum + e]? = some w ∧
      ∀ v : Vec, at2 (cut bs start v) p e = some (v (start + (((bs.take p).map List.length).sum + e)))
  | [], _, p, e, w, h => by simp [at2, rd] at h
  | b :: bs, start, 0, e, w, h => by
    have h' : b[e]? = some w := h
    have he := (List.getElem?_eq_some_iff.1 h').1
    rw [List.take_zero, List.map_nil, List.sum_nil, Nat.zero_add]
    refine ⟨by rw [List.flatten_cons, List.getElem?_append_left he]; exact h', fun v => ?_⟩
    show ((List.range b.length).map fun i => v (start + i))[e]? = _
    rw [List.getElem?_map, List.getElem?_range he]
    rfl
  | b :: bs, start, p + 1, e, w, h => by
    obtain ⟨h1, h2⟩ := at2_cut bs (start + b.length) p e w h
    rw [List.take_succ_cons, List.map_cons, List.sum_cons, Nat.add_assoc]
    refine ⟨?_, fun v => ?_⟩
    · rw [List.flatten_cons, List.getElem?_append_right (Nat.le_add_right _ _), Nat.add_sub_cancel_left]
      exact h1
    · show at2 (cut bs (start + b.length) v) p e = _
      rw [h2, Nat.add_assoc]

/-- The place of an element of a parameter, in the buffer that holds the parameters of its node and in the gradient. -/
theorem at3_place {ws : List (List (List ℝ))} {l p e : Nat} {w : ℝ} (h : at3 ws l p e = some w) :
    (ws.getD l []).flatten[(((ws.getD l []).take p).map List.length).sum + e]? = some w ∧
      ∀ G : Nat → Vec, at3 (gradsOf ws G) l p e = some (G l ((((ws.getD l []).take p).map List.length).sum + e)) := by
  unfold at3 rd at h
  obtain ⟨bs, h1, h2⟩ := Option.bind_eq_some_iff.1 h
  obtain ⟨k1, k2⟩ := at2_cut bs 0 p e w h2
  rw [List.getD_eq_getElem?_getD, h1]
  refine ⟨k1, fun G => ?_⟩
  unfold at3 rd gradsOf
  rw [List.getElem?_mapIdx, h1]
  show at2 (cut bs 0 (G l)) p e = _
  rw [k2, Nat.zero_add]
  rfl

/-- The element of a gradient that belongs to an element of a parameter. -/
theorem at3_gradsOf {ws : List (List (List ℝ))} {l p e : Nat} {w : ℝ} (h : at3 ws l p e = some w) :
    ∃ i, i < (ws.getD l []).flatten.length ∧ ∀ G : Nat → Vec, at3 (gradsOf ws G) l p e = some (G l i) :=
  ⟨_, (List.getElem?_eq_some_iff.1 (at3_place h).1).1, (at3_place h).2⟩

end CN24.NetSplit
