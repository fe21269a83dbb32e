import Verif.Spec.WeightInit
import Verif.Props.NetGraph

/-
Lemmas for C87.
-/

namespace CN24.WeightInit
open CN24 CN24.Net

/-! ### Sums over readers -/

theorem sum_count_mul (F : Nat → Nat) : ∀ (nodes l : List Nat), nodes.Nodup → (∀ r ∈ l, r ∈ nodes) →
    (nodes.map fun r => l.count r * F r).sum = (l.map F).sum
  | nodes, [], _, _ => by
    simp
  | nodes, a :: l, hn, hm => by
    rw [List.map_cons, List.sum_cons, ← sum_count_mul F nodes l hn fun r hr => hm r (List.mem_cons_of_mem _ hr)]
    have ha := hm a (List.mem_cons_self ..)
    clear hm
    induction nodes with
    | nil => cases ha
    | cons b nodes ih =>
      obtain ⟨hb, hn⟩ := List.nodup_cons.1 hn
      simp only [List.map_cons, List.sum_cons]
      rcases List.mem_cons.1 ha with rfl | ha
      · have : (nodes.map fun r => (a :: l).count r * F r) = nodes.map fun r => l.count r * F r := by
          apply List.map_congr_left
          intro r hr
          rw [List.count_cons_of_ne fun h => hb (by rw [h]; exact hr)]
        rw [this, List.count_cons_self, Nat.add_mul, Nat.one_mul]
        omega
      · rw [ih hn ha, List.count_cons_of_ne fun h => hb (by rw [← h]; exact ha)]
        omega

theorem readers_eq {g : Graph} (hn : g.nodes.Nodup) (F : Nat → Nat) (s : Nat) (l : List Nat)
    (hl : ∀ r ∈ l, r ∈ g.nodes)
    (hc : ∀ r ∈ g.nodes, l.count r = (g.heap r).inputs.countP fun c => c.node = s && c.backprop) :
    (l.map F).sum = readers g F s := by
  rw [← sum_count_mul F g.nodes l hn hl]
  unfold readers
  congr 1
  apply List.map_congr_left
  intro r hr
  rw [hc r hr]

theorem readers_congr {g : Graph} {F G : Nat → Nat} {s : Nat}
    (h : ∀ r ∈ g.nodes, (∃ c ∈ (g.heap r).inputs, c.node = s ∧ c.backprop = true) → F r = G r) :
    readers g F s = readers g G s := by
  unfold readers
  congr 1
  apply List.map_congr_left
  intro r hr
  by_cases hz : ((g.heap r).inputs.countP fun c => c.node = s && c.backprop) = 0
  · rw [hz, Nat.zero_mul, Nat.zero_mul]
  · obtain ⟨c, hc, hp⟩ := List.countP_pos_iff.1 (Nat.pos_of_ne_zero hz)
    simp only [Bool.and_eq_true, decide_eq_true_eq] at hp
    rw [h r hr ⟨c, hc, hp⟩]

/-- Existence and uniqueness of the numbers of inputs. -/
theorem fan_exists (g : Graph) (kind : Nat → Kind) (hc : Closed g) (ha : Acyclic g) :
    ∃ F, Fan g kind F ∧ ∀ F', Fan g kind F' → ∀ n ∈ g.nodes, F' n = F n := by
  obtain ⟨μ, hμ⟩ := exists_rank hc ha
  obtain ⟨M, hM⟩ := exists_bound g.nodes μ
  let step : (Nat → Nat) → Nat → Nat := fun F n => passed (kind n) (readers g F n)
  have key : ∀ (k : Nat) (F G : Nat → Nat), ∀ n ∈ g.nodes, M - μ n ≤ k →
      (step^[k] F) n = (step^[k] G) n := by
    intro k
    induction k with
    | zero =>
      intro F G n hn hk
      have := hM n hn
      omega
    | succ k ih =>
      intro F G n hn hk
      rw [Function.iterate_succ_apply', Function.iterate_succ_apply']
      change passed _ _ = passed _ _
      rw [readers_congr]
      rintro r hr ⟨c, hcm, rfl, -⟩
      have := hμ r c.node ⟨hr, c, hcm, rfl⟩
      have := hM r hr
      exact ih F G r hr (by omega)
  refine ⟨step^[M] fun _ => 0, ?_, ?_⟩
  · intro n hn
    have h1 := key M (fun _ => 0) (step fun _ => 0) n hn (by omega)
    rw [h1, ← Function.iterate_succ_apply, Function.iterate_succ_apply']
  · intro F' hF' n hn
    have hfix : ∀ k, ∀ n ∈ g.nodes, (step^[k] F') n = F' n := by
      intro k
      induction k with
      | zero => intro n _; rfl
      | succ k ih =>
        intro n hn
        rw [Function.iterate_succ_apply', hF' n hn]
        change passed _ _ = passed _ _
        rw [readers_congr (fun r hr _ => ih r hr)]
    rw [← hfix M n hn]
    exact key M F' _ n hn (by omega)

/-! ### One layer -/

variable {ρ R : Type _} [Ring R]

theorem drawWeights_eq (draw : ρ → R × ρ) (lo hi : R) (ws : List R) (e : ρ) :
    drawWeights draw lo hi ws e = some ((List.range ws.length).map fun i => number draw e i * (hi - lo) + lo,
      (fun e => (draw e).2)^[ws.length] e) := by
  unfold drawWeights
  have h := forLoop_inv (n := ws.length)
    (f := fun i (st : List R × ρ) =>
      let d := draw st.2
      (wr st.1 i (d.1 * (hi - lo) + lo)).map fun ws => (ws, d.2)) (s := (ws, e))
    (P := fun i st => st = ((List.range i).map (fun i => number draw e i * (hi - lo) + lo) ++ ws.drop i,
      (fun e => (draw e).2)^[i] e)) (by simp) ?_
  · obtain ⟨s', h1, h2⟩ := h
    rw [h1, h2]
    simp
  · rintro i ⟨l, e'⟩ hi' hst
    simp only [Prod.mk.injEq] at hst
    obtain ⟨rfl, rfl⟩ := hst
    refine ⟨_, ?_, rfl⟩
    have hlen : i < ((List.range i).map (fun i => number draw e i * (hi - lo) + lo) ++ ws.drop i).length := by
      simp; omega
    dsimp only
    rw [wr_of_lt hlen]
    simp only [Option.map_some, Option.some.injEq, Prod.mk.injEq]
    refine ⟨?_, by rw [Function.iterate_succ_apply']⟩
    rw [List.set_append_right _ _ (by simp)]
    rw [List.range_succ, List.map_append, List.append_assoc]
    congr 1
    simp only [List.length_map, List.length_range, Nat.sub_self, List.map_cons, List.map_nil]
    rw [List.drop_eq_getElem_cons hi']
    rfl

/-- The state of a layer after it was told about its readers, in terms of the sum of the inputs behind them. -/
def connected (draw : ρ → R × ρ) (range : Nat → R) (u : Unit ρ R) (sum : Nat) : Unit ρ R :=
  match u.kind with
  | .convolution w h m =>
    let r := range (w * h * m + sum)
    { u with
      weights := (List.range u.weights.length).map fun i => number draw u.engine i * (r - -r) + -r
      engine := (fun e => (draw e).2)^[u.weights.length] u.engine }
  | _ => { u with gain := sum }

theorem Fits.passed_lt {k : Kind} {sum : Nat} (h : Fits k sum) : passed k sum < 2 ^ 32 := by
  cases k with
  | convolution w h' m => exact Nat.lt_of_le_of_lt (Nat.le_add_right _ _) h.2
  | pooling w h' => exact Nat.lt_of_le_of_lt (Nat.div_le_self _ _) h.2.2
  | other => exact h

theorem connected_kind (draw : ρ → R × ρ) (range : Nat → R) (u : Unit ρ R) (sum : Nat) :
    (connected draw range u sum).kind = u.kind := by
  unfold connected
  split <;> rfl

theorem u32_mul {w h m : Nat} (h0 : 0 < w * h * m) (hl : w * h * m < 2 ^ 32) : u32 (u32 (w * h) * m) = w * h * m := by
  unfold u32
  rcases Nat.eq_zero_or_pos m with rfl | hm
  · simp at h0
  · have : w * h ≤ w * h * m := Nat.le_mul_of_pos_right _ hm
    rw [Nat.mod_eq_of_lt (a := w * h) (by omega), Nat.mod_eq_of_lt hl]

theorem gainOf_connected (draw : ρ → R × ρ) (range : Nat → R) (u : Unit ρ R) (sum : Nat)
    (h : Fits u.kind sum) : (connected draw range u sum).gainOf = .done (passed u.kind sum) := by
  unfold Unit.gainOf
  rw [connected_kind]
  unfold connected
  cases hk : u.kind with
  | convolution w h' m =>
    rw [hk] at h
    simp only [passed]
    rw [u32_mul h.1 (by have := h.2; omega)]
  | pooling w h' =>
    rw [hk] at h
    obtain ⟨h1, h2, -⟩ := h
    have : u32 (w * h') = w * h' := Nat.mod_eq_of_lt h2
    simp only [passed, this]
    rw [if_neg (by omega)]
  | other => rfl

theorem gainSum_eq : ∀ (us : List (Unit ρ R)) (fs : List Nat) (s : Nat),
    List.Forall₂ (fun u f => u.gainOf = .done f) us fs → s + fs.sum < 2 ^ 32 →
    gainSum us s = .done (s + fs.sum)
  | _, _, s, .nil, _ => rfl
  | _, _, s, .cons (a := u) (b := f) (l₁ := us) (l₂ := fs) h hs, hl => by
    rw [List.sum_cons] at hl ⊢
    unfold gainSum
    rw [h, Outcome.bind_done]
    have : u32 (s + f) = s + f := Nat.mod_eq_of_lt (by omega)
    rw [this, gainSum_eq us fs (s + f) hs (by omega), Nat.add_assoc]

theorem onLayerConnect_eq (draw : ρ → R × ρ) (range : Nat → R) (u : Unit ρ R) (next : List (Unit ρ R))
    (fs : List Nat) (h : List.Forall₂ (fun u f => u.gainOf = .done f) next fs) (hk : Fits u.kind fs.sum) :
    u.onLayerConnect draw range next = .done (connected draw range u fs.sum) := by
  have hs : fs.sum < 2 ^ 32 := by
    cases hkk : u.kind with
    | convolution w h' m => rw [hkk] at hk; have := hk.2; omega
    | pooling w h' => rw [hkk] at hk; exact hk.2.2
    | other => rw [hkk] at hk; exact hk
  unfold Unit.onLayerConnect
  rw [gainSum_eq next fs 0 h (by omega), Nat.zero_add, Outcome.bind_done]
  unfold connected
  cases hkk : u.kind with
  | convolution w h' m =>
    rw [hkk] at hk
    have hg : u.gainOf = .done (w * h' * m) := by
      unfold Unit.gainOf
      rw [hkk]
      simp only
      rw [u32_mul hk.1 (by have := hk.2; omega)]
    have ht : u32 (fs.sum + w * h' * m) = w * h' * m + fs.sum := by
      rw [Nat.add_comm]
      exact Nat.mod_eq_of_lt hk.2
    simp only [hg, Outcome.bind_done, ht]
    rw [if_neg (by have := hk.1; omega), drawWeights_eq]
    rfl
  | pooling w h' => rfl
  | other => rfl

/-! ### All layers -/

theorem connectAll_eq (draw : ρ → R × ρ) (range : Nat → R) (us : Nat → Unit ρ R) (sums F : Nat → Nat)
    (hF : ∀ n, F n = passed (us n).kind (sums n)) :
    ∀ (post pre : List (Nat × List Nat)), ((pre ++ post).map Prod.fst).Nodup →
      (∀ a n l b, pre ++ post = a ++ (n, l) :: b → Fits (us n).kind (sums n) ∧ (l.map F).sum = sums n ∧
        ∀ r ∈ l, r ∈ a.map Prod.fst) →
      connectAll draw range post (fun k => if k ∈ pre.map Prod.fst then connected draw range (us k) (sums k) else us k) =
        .done fun k => if k ∈ (pre ++ post).map Prod.fst then connected draw range (us k) (sums k) else us k
  | [], pre, _, _ => by
    rw [List.append_nil]
    rfl
  | (n, l) :: post, pre, hn, h => by
    obtain ⟨h1, h2, h3⟩ := h pre n l post rfl
    unfold connectAll
    have hnp : n ∉ pre.map Prod.fst := by
      intro hm
      rw [List.map_append, List.map_cons] at hn
      exact (List.nodup_append.1 hn).2.2 n hm n (by simp) rfl
    have hg : ∀ r ∈ l, (if r ∈ pre.map Prod.fst then connected draw range (us r) (sums r) else us r).gainOf =
        .done (F r) := by
      intro r hr
      have hrp := h3 r hr
      rw [if_pos hrp]
      obtain ⟨⟨r', l'⟩, hm, rfl⟩ := List.mem_map.1 hrp
      obtain ⟨a, b, e⟩ := List.append_of_mem hm
      rw [hF]
      exact gainOf_connected draw range _ _ (h a r' l' (b ++ (n, l) :: post) (by rw [e]; simp)).1
    have hfs : List.Forall₂ (fun (u : Unit ρ R) f => u.gainOf = .done f)
        (l.map fun k => if k ∈ pre.map Prod.fst then connected draw range (us k) (sums k) else us k) (l.map F) := by
      clear h2 h3 h hn
      induction l with
      | nil => exact .nil
      | cons r l ih => exact .cons (hg r (List.mem_cons_self ..)) (ih fun r hr => hg r (List.mem_cons_of_mem _ hr))
    simp only [if_neg hnp]
    rw [onLayerConnect_eq draw range (us n) _ (l.map F) hfs (by rw [h2]; exact h1), Outcome.bind_done, h2]
    have := connectAll_eq draw range us sums F hF post (pre ++ [(n, l)]) (by simpa using hn)
      (by rw [List.append_assoc]; exact h)
    rw [List.append_assoc] at this
    refine Eq.trans ?_ this
    congr 1
    funext k
    by_cases hk : k = n
    · subst hk
      rw [if_pos rfl, if_pos (by simp)]
    · have hiff : k ∈ (pre ++ [(n, l)]).map Prod.fst ↔ k ∈ pre.map Prod.fst := by
        rw [List.map_append, List.mem_append]
        simp [hk]
      rw [if_neg hk]
      by_cases hp : k ∈ pre.map Prod.fst
      · rw [if_pos hp, if_pos (hiff.2 hp)]
      · rw [if_neg hp, if_neg fun h => hp (hiff.1 h)]

end CN24.WeightInit

namespace CN24.WeightInit
open CN24 CN24.Net

variable {ρ R : Type _} [Ring R]

/-- `InitializeWeights` on a graph as it is. -/
theorem initializeWeights_eq (g : Graph) (hn : g.nodes.Nodup) (hr : Registered g) (hc : Closed g) (ha : Acyclic g)
    (draw : ρ → R × ρ) (range : Nat → R) (us : Nat → Unit ρ R) (F : Nat → Nat)
    (hF : Fan g (fun n => (us n).kind) F) (hs : ∀ n ∈ g.nodes, Fits (us n).kind (readers g F n)) :
    ∃ N, ∀ fuel, N ≤ fuel → ∀ flags, initializeWeights draw range g fuel flags us =
      .done fun k => if k ∈ g.nodes then connected draw range (us k) (readers g F k) else us k := by
  obtain ⟨N, log, h1, h2, h3, h4⟩ := C60_initializeWeights_order g hr hc ha
  refine ⟨N, fun fuel hf flags => ?_⟩
  obtain ⟨v, hv⟩ := h4 fuel hf flags
  unfold initializeWeights
  rw [hv, Outcome.ofOption_some, Outcome.bind_done]
  let F' : Nat → Nat := fun n => passed (us n).kind (readers g F n)
  have hFF : ∀ n ∈ g.nodes, F' n = F n := fun n hn => (hF n hn).symm
  have h := connectAll_eq draw range us (readers g F) F' (fun _ => rfl) log [] (by simpa using h1) ?_
  · simp only [List.nil_append] at h
    refine Eq.trans ?_ (h.trans ?_)
    · rfl
    · congr 1
      funext k
      by_cases hk : k ∈ g.nodes
      · rw [if_pos hk, if_pos ((h2 k).2 hk)]
      · rw [if_neg hk, if_neg fun h => hk ((h2 k).1 h)]
  · intro a n l b e
    rw [List.nil_append] at e
    obtain ⟨i1, i2, i3⟩ := h3 a n l b e
    have hng : n ∈ g.nodes := by
      rw [← h2, e]
      simp
    have hl : ∀ r ∈ l, r ∈ g.nodes := fun r hr => ((i1 r).1 hr).1
    refine ⟨hs n hng, ?_, i2⟩
    rw [← readers_eq hn F n l hl i3]
    congr 1
    exact List.map_congr_left fun r hr => hFF r (hl r hr)

/-! ### Accumulation nodes -/

theorem insertGA_nodup {g : Graph} (s : Nat) (h : g.nodes.Nodup ∧ ∀ n ∈ g.nodes, n < g.next) :
    (insertGA g s).2.nodes.Nodup ∧ ∀ n ∈ (insertGA g s).2.nodes, n < (insertGA g s).2.next := by
  unfold insertGA
  split
  · dsimp only
    unfold addNode
    dsimp only
    refine ⟨?_, ?_⟩
    · rw [List.nodup_append]
      refine ⟨h.1, by simp, ?_⟩
      intro a ha b hb
      rw [List.mem_singleton.1 hb]
      exact Nat.ne_of_lt (h.2 a ha)
    · intro n hn
      rcases List.mem_append.1 hn with hn | hn
      · exact Nat.lt_succ_of_lt (h.2 n hn)
      · rw [List.mem_singleton.1 hn]
        exact Nat.lt_succ_self _
  · exact h

theorem insertPass_nodup {g : Graph} (h : g.nodes.Nodup ∧ ∀ n ∈ g.nodes, n < g.next) :
    (insertPass g).2.nodes.Nodup ∧ ∀ n ∈ (insertPass g).2.nodes, n < (insertPass g).2.next := by
  unfold insertPass
  suffices H : ∀ (l : List Nat) (st : Bool × Graph), (st.2.nodes.Nodup ∧ ∀ n ∈ st.2.nodes, n < st.2.next) →
      let r := l.foldl (fun st n => let r := insertGA st.2 n; (st.1 || r.1, r.2)) st
      r.2.nodes.Nodup ∧ ∀ n ∈ r.2.nodes, n < r.2.next by
    exact H g.nodes (false, g) h
  intro l
  induction l with
  | nil => intro st h; exact h
  | cons n l ih => intro st h; exact ih _ (insertGA_nodup n h)

theorem insertAll_nodup : ∀ (fuel : Nat) {g g' : Graph}, (g.nodes.Nodup ∧ ∀ n ∈ g.nodes, n < g.next) →
    insertAll fuel g = some g' → g'.nodes.Nodup
  | 0, _, _, _, h => by cases h
  | fuel + 1, g, g', hg, h => by
    unfold insertAll at h
    dsimp only at h
    split at h
    · exact insertAll_nodup fuel (insertPass_nodup hg) h
    · cases h
      exact (insertPass_nodup hg).1

/-- Connections from `s` to a node. -/
def links (g : Graph) (r s : Nat) : Nat := (g.heap r).inputs.countP fun c => c.node = s && c.backprop

theorem readers_links (g : Graph) (F : Nat → Nat) (s : Nat) :
    readers g F s = (g.nodes.map fun r => links g r s * F r).sum := rfl

theorem sum_zero {l : List Nat} {f : Nat → Nat} (h : ∀ r ∈ l, f r = 0) : (l.map f).sum = 0 := by
  induction l with
  | nil => rfl
  | cons a l ih =>
    rw [List.map_cons, List.sum_cons, h a (List.mem_cons_self ..), ih fun r hr => h r (List.mem_cons_of_mem _ hr)]

theorem sum_single : ∀ {l : List Nat} {f : Nat → Nat} {k : Nat}, l.Nodup → k ∈ l → (∀ r ∈ l, r ≠ k → f r = 0) →
    (l.map f).sum = f k
  | [], _, _, _, hk, _ => by cases hk
  | a :: l, f, k, hn, hk, h => by
    obtain ⟨ha, hn⟩ := List.nodup_cons.1 hn
    rw [List.map_cons, List.sum_cons]
    by_cases e : a = k
    · subst e
      rw [sum_zero fun r hr => h r (List.mem_cons_of_mem _ hr) fun e => ha (e ▸ hr), Nat.add_zero]
    · have hk' : k ∈ l := (List.mem_cons.1 hk).resolve_left fun e' => e e'.symm
      rw [h a (List.mem_cons_self ..) e, Nat.zero_add,
        sum_single hn hk' fun r hr => h r (List.mem_cons_of_mem _ hr)]

theorem bps_length {g : Graph} (hn : g.nodes.Nodup) (hr : Registered g) (s : Nat) :
    (g.heap s).bps.length = readers g (fun _ => 1) s := by
  rw [← readers_eq hn (fun _ => 1) s ((g.heap s).bps.map (·.node))]
  · rw [List.map_map]
    generalize (g.heap s).bps = l
    induction l with
    | nil => rfl
    | cons a l ih =>
      rw [List.map_cons, List.sum_cons, ← ih, List.length_cons]
      exact Nat.add_comm _ _
  · intro r h
    obtain ⟨e, he, rfl⟩ := List.mem_map.1 h
    exact (registered_entry hr he).1
  · intro r hrn
    apply registered_count
    intro b
    rw [hr s r b, if_pos hrn]

/-- The accumulation nodes inserted by `Initialize` do not change the sums over readers. -/
theorem readers_accumulated (g : Graph) (ns : List Nat) (h : Wired g ns) (F : Nat → Nat) :
    ∃ g', (∀ fuel, 2 ≤ fuel → insertAll fuel (addNodes g ns) = some g') ∧ g'.nodes.Nodup ∧
      (∃ extra, g'.nodes = ns ++ extra) ∧
      ∃ F', (∀ k ∈ ns, F' k = F k ∧ readers g' F' k = readers (addNodes g ns) F k) ∧
        ∀ k ∈ g'.nodes, k ∉ ns → F' k = readers g' F' k ∧ ∃ s ∈ ns, F' k = readers (addNodes g ns) F s := by
  obtain ⟨hinv, hnodes, hnoga, hclosed⟩ := wired_inv h
  obtain ⟨g', hfuel, hp⟩ := insertAll_spec hinv (by rw [hnodes]; exact hnoga)
  generalize hg0 : addNodes g ns = g0 at *
  have hnd : g'.nodes.Nodup := by
    refine insertAll_nodup 2 ⟨?_, ?_⟩ (hfuel 2 (Nat.le_refl _))
    · rw [hnodes]; exact h.nodup
    · exact hinv.node_lt
  obtain ⟨extra, hex⟩ := hp.nodes
  rw [hnodes] at hex
  have hreg0 : Registered g0 := hinv.cons
  have hreg : Registered g' := hp.inv.cons
  have hnd0 : g0.nodes.Nodup := by rw [hnodes]; exact h.nodup
  have hndx : extra.Nodup := by rw [hex] at hnd; exact (List.nodup_append.1 hnd).2.1
  have hxns : ∀ k ∈ extra, k ∉ ns := fun k hk hk' => by
    rw [hex] at hnd
    exact (List.nodup_append.1 hnd).2.2 k hk' k hk rfl
  have hin : ∀ k ∈ ns, k ∈ g'.nodes := fun k hk => by rw [hex]; exact List.mem_append_left _ hk
  have hinx : ∀ k ∈ extra, k ∈ g'.nodes := fun k hk => by rw [hex]; exact List.mem_append_right _ hk
  have hone : ∀ s ∈ ns, (g'.heap s).bps.length ≤ 1 := fun s hs => (hp.handled s (by rw [hnodes]; simpa using hs)).2
  -- the source of an accumulation node
  have hga : ∀ k ∈ extra, ∃ s ∈ ns, 1 < (g0.heap s).bps.length ∧ (g'.heap k).inputs = [⟨s, 0, true⟩] := by
    intro k hk
    obtain ⟨-, s, -, hs, hl, he, -⟩ := hp.ga k (hinx k hk) (by rw [hnodes]; exact hxns k hk)
    rw [hnodes] at hs
    exact ⟨s, hs, hl, by rw [he]; rfl⟩
  -- two readers of a node are the same
  have huniq : ∀ s ∈ ns, ∀ a b, Consumes g' a s → Consumes g' b s → a = b := by
    intro s hs a b ha hb
    have h1 := registered_of_consumes hreg ha
    have h2 := registered_of_consumes hreg hb
    have h3 := hone s hs
    generalize (g'.heap s).bps = l at h1 h2 h3
    match l, h3 with
    | [], _ => simp at h1
    | [e], _ =>
      simp only [List.map_cons, List.map_nil, List.mem_singleton] at h1 h2
      rw [h1, h2]
  have hconsx : ∀ k ∈ extra, ∀ s, (g'.heap k).inputs = [⟨s, 0, true⟩] → Consumes g' k s :=
    fun k hk s e => ⟨hinx k hk, ⟨s, 0, true⟩, by rw [e]; simp, rfl, rfl⟩
  have hlinkx : ∀ k ∈ extra, ∀ s, (g'.heap k).inputs = [⟨s, 0, true⟩] → ∀ t, links g' k t = if t = s then 1 else 0 := by
    intro k hk s e t
    unfold links
    rw [e]
    by_cases ht : t = s
    · subst ht; simp
    · rw [if_neg ht]
      have : ¬ s = t := fun e => ht e.symm
      simp [this]
  have hc0 : ∀ r ∈ ns, ∀ c ∈ (g0.heap r).inputs, c.node ∈ ns := by
    intro r hr c hc
    have := hclosed r c.node ⟨by rw [hnodes]; exact hr, c, hc, rfl⟩
    rwa [hnodes] at this
  -- without accumulation node nothing changes
  have hkeep : ∀ s ∈ ns, (∀ k ∈ extra, (g'.heap k).inputs ≠ [⟨s, 0, true⟩]) → ∀ r ∈ ns, links g' r s = links g0 r s := by
    intro s hs hno r hr
    have hf := hp.conns r (by rw [hnodes]; exact hr)
    unfold links
    generalize (g0.heap r).inputs = l0 at hf
    generalize (g'.heap r).inputs = l1 at hf
    induction hf with
    | nil => rfl
    | cons x _ ih =>
      rename_i c c' l0 l1 _
      rw [List.countP_cons, List.countP_cons, ih]
      congr 1
      rcases x with rfl | ⟨-, -, -, x4, x5, -, x7⟩
      · rfl
      · rw [hnodes] at x5
        have hcx : c'.node ∈ extra := by
          rw [hex] at x4
          exact (List.mem_append.1 x4).resolve_left x5
        obtain ⟨t, -, -, ht⟩ := hga _ hcx
        have hct : c = ⟨t, 0, true⟩ := by
          rw [ht] at x7
          simpa using x7.symm
        have h1 : c.node ≠ s := by
          intro e
          rw [hct] at e
          apply hno _ hcx
          rw [ht]
          simp only at e
          rw [e]
        have h2 : c'.node ≠ s := fun e => x5 (e ▸ hs)
        simp [h1, h2]
  -- with accumulation node all readers have moved there
  have hmove : ∀ s ∈ ns, ∀ k ∈ extra, (g'.heap k).inputs = [⟨s, 0, true⟩] → ∀ r ∈ ns,
      links g' r s = 0 ∧ links g' r k = links g0 r s := by
    intro s hs k hk hks r hr
    have hf := hp.conns r (by rw [hnodes]; exact hr)
    have hsub : ∀ c' ∈ (g'.heap r).inputs, c'.node = s → c'.backprop = false := by
      intro c' hc' e
      cases hb : c'.backprop with
      | false => rfl
      | true =>
        have := huniq s hs r k ⟨hin r hr, c', hc', e, hb⟩ (hconsx k hk s hks)
        rw [this] at hr
        exact absurd hr (hxns k hk)
    have hsub0 := hc0 r hr
    unfold links
    generalize (g0.heap r).inputs = l0 at hf hsub0
    generalize (g'.heap r).inputs = l1 at hf hsub
    induction hf with
    | nil => exact ⟨rfl, rfl⟩
    | cons x _ ih =>
      rename_i c c' l0 l1 _
      obtain ⟨i1, i2⟩ := ih (fun c hc => hsub0 c (List.mem_cons_of_mem _ hc))
        (fun c' hc' => hsub c' (List.mem_cons_of_mem _ hc'))
      rw [List.countP_cons, List.countP_cons, List.countP_cons, i1, i2]
      have hs' := hsub c' (List.mem_cons_self ..)
      have h0 : (if (decide (c'.node = s) && c'.backprop) = true then 1 else 0) = 0 := by
        by_cases e : c'.node = s
        · rw [hs' e]; simp
        · simp [e]
      refine ⟨by rw [h0], ?_⟩
      congr 1
      rcases x with rfl | ⟨x1, x2, -, x4, x5, -, x7⟩
      · have : c'.node ≠ k := fun e => hxns k hk (e ▸ hsub0 c' (List.mem_cons_self ..))
        rw [h0]
        simp [this]
      · rw [hnodes] at x5
        have hcx : c'.node ∈ extra := by
          rw [hex] at x4
          exact (List.mem_append.1 x4).resolve_left x5
        obtain ⟨t, -, -, ht⟩ := hga _ hcx
        have hct : c = ⟨t, 0, true⟩ := by
          rw [ht] at x7
          simpa using x7.symm
        have hiff : c'.node = k ↔ c.node = s := by
          constructor
          · intro e
            rw [e, hks] at ht
            rw [hct]
            simpa using ht.symm
          · intro e
            apply huniq s hs
            · rw [hct] at e
              simp only at e
              exact hconsx _ hcx s (by rw [ht, e])
            · exact hconsx k hk s hks
        rw [x1, x2]
        by_cases e : c.node = s
        · simp [e, hiff.2 e]
        · have : ¬ c'.node = k := fun e' => e (hiff.1 e')
          simp [e, this]
  -- an accumulation node exists exactly where there were several readers
  have hmany : ∀ s ∈ ns, 1 < (g0.heap s).bps.length → ∃ k ∈ extra, (g'.heap k).inputs = [⟨s, 0, true⟩] := by
    intro s hs hl
    by_contra hno
    have hno' : ∀ k ∈ extra, (g'.heap k).inputs ≠ [⟨s, 0, true⟩] := fun k hk e => hno ⟨k, hk, e⟩
    have h1 := hone s hs
    rw [bps_length hnd hreg, readers_links, hex, List.map_append, List.sum_append] at h1
    rw [bps_length hnd0 hreg0, readers_links, hnodes] at hl
    have : (ns.map fun r => links g' r s * 1) = ns.map fun r => links g0 r s * 1 :=
      List.map_congr_left fun r hr => by rw [hkeep s hs hno' r hr]
    rw [this] at h1
    omega
  let src : Nat → Nat := fun k => (((g'.heap k).inputs.map (·.node)).headD 0)
  let F' : Nat → Nat := fun k => if k ∈ ns then F k else readers g0 F (src k)
  have hF'ns : ∀ k ∈ ns, F' k = F k := fun k hk => if_pos hk
  have hF'x : ∀ k ∈ extra, ∀ s, (g'.heap k).inputs = [⟨s, 0, true⟩] → F' k = readers g0 F s := by
    intro k hk s e
    show (if k ∈ ns then F k else readers g0 F (src k)) = _
    rw [if_neg (hxns k hk)]
    show readers g0 F (((g'.heap k).inputs.map (·.node)).headD 0) = _
    rw [e]
    rfl
  refine ⟨g', hfuel, hnd, ⟨extra, hex⟩, F', ?_, ?_⟩
  · intro s hs
    refine ⟨hF'ns s hs, ?_⟩
    rw [readers_links, hex, List.map_append, List.sum_append]
    by_cases hl : 1 < (g0.heap s).bps.length
    · obtain ⟨k, hk, hks⟩ := hmany s hs hl
      rw [sum_zero fun r hr => by rw [(hmove s hs k hk hks r hr).1, Nat.zero_mul], Nat.zero_add,
        sum_single hndx hk]
      · rw [hlinkx k hk s hks, if_pos rfl, Nat.one_mul, hF'x k hk s hks]
      · intro r hr hrk
        obtain ⟨t, -, -, ht⟩ := hga r hr
        rw [hlinkx r hr t ht]
        by_cases e : s = t
        · subst e
          exact absurd (huniq s hs r k (hconsx r hr s ht) (hconsx k hk s hks)) hrk
        · rw [if_neg e, Nat.zero_mul]
    · have hno : ∀ k ∈ extra, (g'.heap k).inputs ≠ [⟨s, 0, true⟩] := by
        intro k hk e
        obtain ⟨t, -, ht, ht'⟩ := hga k hk
        rw [e] at ht'
        have : s = t := by simpa using ht'
        subst this
        exact hl ht
      rw [sum_zero (l := extra), Nat.add_zero, readers_links, hnodes]
      · congr 1
        exact List.map_congr_left fun r hr => by rw [hkeep s hs hno r hr, hF'ns r hr]
      · intro r hr
        obtain ⟨t, -, -, ht⟩ := hga r hr
        rw [hlinkx r hr t ht, if_neg, Nat.zero_mul]
        rintro rfl
        exact hno r hr ht
  · intro k hk hkn
    have hkx : k ∈ extra := by
      rw [hex] at hk
      exact (List.mem_append.1 hk).resolve_left hkn
    obtain ⟨s, hs, -, hks⟩ := hga k hkx
    rw [hF'x k hkx s hks]
    refine ⟨?_, s, hs, rfl⟩
    rw [readers_links g' F' k, hex, List.map_append, List.sum_append, sum_zero (l := extra), Nat.add_zero, readers_links,
      hnodes]
    · congr 1
      exact List.map_congr_left fun r hr => by rw [(hmove s hs k hkx hks r hr).2, hF'ns r hr]
    · intro r hr
      obtain ⟨t, ht', -, ht⟩ := hga r hr
      rw [hlinkx r hr t ht, if_neg, Nat.zero_mul]
      rintro rfl
      exact hkn ht'

end CN24.WeightInit
