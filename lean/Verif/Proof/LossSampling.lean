import Verif.Spec.LossSampling
import Verif.Proof.SessionSource
import Mathlib.Analysis.Calculus.Deriv.Add
import Mathlib.Analysis.Calculus.Deriv.Mul
import Mathlib.Tactic.FieldSimp

/-
Helper lemmas for C86.
-/

namespace CN24.LossSampling
open CN24 CN24.Sampling CN24.Session CN24.Tensor

/-! ### Averages -/

section
variable {values : List ℝ}

theorem sum_map_add {α : Type _} (f g : α → ℝ) : ∀ l : List α,
    (l.map fun x => f x + g x).sum = (l.map f).sum + (l.map g).sum
  | [] => by simp
  | a :: l => by
    simp only [List.map_cons, List.sum_cons, sum_map_add f g l]
    ring

theorem sum_map_mul {α : Type _} (c : ℝ) (f : α → ℝ) : ∀ l : List α,
    (l.map fun x => c * f x).sum = c * (l.map f).sum
  | [] => by simp
  | a :: l => by
    simp only [List.map_cons, List.sum_cons, sum_map_mul c f l]
    ring

theorem sum_map_const {α : Type _} (c : ℝ) (l : List α) : (l.map fun _ => c).sum = l.length * c := by
  rw [List.map_const', List.sum_replicate, nsmul_eq_mul]

theorem mean_add : ∀ (n : Nat) (f g : List ℝ → ℝ),
    mean values n (fun l => f l + g l) = mean values n f + mean values n g
  | 0, _, _ => rfl
  | n + 1, f, g => by
    simp only [mean, mean_add n, sum_map_add]
    ring

theorem mean_mul (c : ℝ) : ∀ (n : Nat) (f : List ℝ → ℝ),
    mean values n (fun l => c * f l) = c * mean values n f
  | 0, _ => rfl
  | n + 1, f => by
    simp only [mean, mean_mul c n, sum_map_mul]
    ring

theorem mean_const (hv : values ≠ []) (c : ℝ) : ∀ n : Nat, mean values n (fun _ => c) = c
  | 0 => rfl
  | n + 1 => by
    have h : (values.length : ℝ) ≠ 0 := Nat.cast_ne_zero.2 (mt List.length_eq_zero_iff.1 hv)
    simp only [mean, mean_const hv c n, sum_map_const]
    field_simp

theorem mean_zero (n : Nat) : mean values n (fun _ => 0) = 0 := by
  have := mean_mul (values := values) 0 n fun _ => 0
  simpa using this

theorem mean_sum {ι : Type _} (s : Finset ι) (n : Nat) (f : ι → List ℝ → ℝ) :
    mean values n (fun l => ∑ i ∈ s, f i l) = ∑ i ∈ s, mean values n (f i) := by
  classical
  induction s using Finset.induction_on with
  | empty => simp only [Finset.sum_empty, mean_zero]
  | insert a s ha ih =>
    simp only [Finset.sum_insert ha]
    rw [← ih, ← mean_add]

theorem mean_congr {n : Nat} : ∀ {f g : List ℝ → ℝ}, (∀ l, l.length = n → f l = g l) →
    mean values n f = mean values n g := by
  induction n with
  | zero => exact fun h => h [] rfl
  | succ n ih =>
    intro f g h
    unfold mean
    congr 3
    funext d
    exact ih fun l hl => h (d :: l) (by rw [List.length_cons, hl])

/-- A function of one draw. -/
theorem mean_draw (hv : values ≠ []) (g : ℝ → ℝ) : ∀ (n k : Nat), k < n →
    mean values n (fun l => g (l.getD k 0)) = (values.map g).sum / values.length
  | n + 1, 0, _ => by
    simp only [mean, List.getD_cons_zero, mean_const hv]
  | n + 1, k + 1, h => by
    have hl : (values.length : ℝ) ≠ 0 := Nat.cast_ne_zero.2 (mt List.length_eq_zero_iff.1 hv)
    simp only [mean, List.getD_cons_succ, mean_draw hv g n k (by omega), sum_map_const]
    field_simp

theorem sum_kept (p w : ℝ) : ∀ l : List ℝ, (l.map fun d => if p < d then 0 else w).sum =
    ((l.filter fun d => decide (d ≤ p)).length : ℝ) * w
  | [] => by simp
  | d :: l => by
    rw [List.map_cons, List.sum_cons, sum_kept p w l]
    by_cases h : p < d
    · rw [if_pos h, List.filter_cons_of_neg (by simpa using h)]
      ring
    · rw [if_neg h, List.filter_cons_of_pos (by simpa using h), List.length_cons]
      push_cast
      ring

/-- A weight that is dropped if a draw exceeds `p`. -/
theorem mean_weight (hv : values ≠ []) (p w : ℝ) {n k : Nat} (hk : k < n) :
    mean values n (fun l => if p < l.getD k 0 then 0 else w) = share values p * w := by
  rw [mean_draw hv (fun d => if p < d then 0 else w) n k hk, sum_kept]
  unfold share
  ring

theorem mean_hasDerivAt {f : List ℝ → ℝ → ℝ} {f' : List ℝ → ℝ} {x : ℝ} : ∀ {n : Nat},
    (∀ l, l.length = n → HasDerivAt (f l) (f' l) x) →
    HasDerivAt (fun s => mean values n fun l => f l s) (mean values n f') x := by
  have key : ∀ (n : Nat) (f : List ℝ → ℝ → ℝ) (f' : List ℝ → ℝ), (∀ l, l.length = n → HasDerivAt (f l) (f' l) x) →
      HasDerivAt (fun s => mean values n fun l => f l s) (mean values n f') x := by
    intro n
    induction n with
    | zero => exact fun f f' h => h [] rfl
    | succ n ih =>
      intro f f' h
      have hs : ∀ vs : List ℝ, HasDerivAt (fun s => (vs.map fun d => mean values n fun l => f (d :: l) s).sum)
          (vs.map fun d => mean values n fun l => f' (d :: l)).sum x := by
        intro vs
        induction vs with
        | nil => exact hasDerivAt_const _ _
        | cons d vs ih2 =>
          exact (ih (fun l => f (d :: l)) (fun l => f' (d :: l))
            fun l hl => h (d :: l) (by rw [List.length_cons, hl])).add ih2
      exact (hs values).div_const _
  exact fun {n} => key n f f'

end

/-! ### Batches with and without loss sampling -/

section
variable {H : Type _} {shuffle : H → List Nat → List Nat × H}

theorem after_scripted (l : List ℝ) (h : H) : ∀ k, after (scripted shuffle) (l, h) k = (l.drop k, h)
  | 0 => rfl
  | k + 1 => by
    rw [after, after_scripted l h k]
    show ((l.drop k).tail, h) = _
    rw [List.tail_drop]

theorem nth_scripted (l : List ℝ) (h : H) (k : Nat) : nth (scripted shuffle) (l, h) k = l.getD k 0 := by
  unfold nth
  rw [after_scripted]
  show (l.drop k).headD 0 = _
  rw [List.headD_eq_head?_getD, List.head?_drop, List.getD_eq_getElem?_getD]

/-- The number of blocks of a sample. -/
def blocks (W H : Nat) : Nat := (H + 11) / 12 * ((W + 11) / 12)

/-- The input layer with sampling (`t`) and without (`u`): what matters of both. -/
structure Side (ds : Data ℝ) (Fit : Outputs ℝ → Prop) (l : List ℝ) (t u : Sampling.State ℝ (List ℝ × H)) : Prop where
  perm : t.perm = u.perm
  current : t.current = u.current
  draws : t.gen.1 = l
  gen : t.gen.2 = u.gen.2
  fitL : Fit t.outs
  fitR : Fit u.outs
  range : ∀ e ∈ t.perm, e < ds.training
  next : t.current < t.perm.length
  trainL : t.testing = false
  trainR : u.testing = false

/-- The first `k` samples of the batch: all but the weights is the same, the weights of dropped blocks are zero. -/
structure Masked (p : ℝ) (l : List ℝ) (k : Nat) (o₁ o₂ : Outputs ℝ) : Prop where
  data : AgreeT k o₁.data o₂.data
  label : AgreeT k o₁.label o₂.label
  helper : AgreeT k o₁.helper o₂.helper
  error : ∀ x y m s, o₁.error.InRange x y m s → s < k → o₁.error.get x y m s =
    if m = 0 ∧ p < l.getD (s * blocks o₁.error.width o₁.error.height +
      (y / 12 * ((o₁.error.width + 11) / 12) + x / 12)) 0 then some 0 else o₂.error.get x y m s

variable {p : ℝ} {ds : Data ℝ} {batch : Nat} {Fit : Outputs ℝ → Prop}

theorem select_side (hrnd : ∀ g l, (shuffle g l).1.Perm l) {l : List ℝ} {t u : Sampling.State ℝ (List ℝ × H)}
    (h : Side ds Fit l t u) :
    ∃ e t1 u1, select (scripted shuffle) ds t = some (e, false, t1) ∧
      select (scripted shuffle) (unsampled ds) u = some (e, false, u1) ∧ e < ds.training ∧
      Side ds Fit l t1 u1 ∧ t1.outs = t.outs ∧ u1.outs = u.outs := by
  unfold select rd
  rw [if_neg (by rw [h.trainL]; simp), if_neg (by rw [h.trainR]; simp), ← h.perm, ← h.current,
    List.getElem?_eq_getElem h.next]
  simp only [Option.map_some]
  by_cases hc : t.perm.length ≤ t.current + 1
  · rw [if_pos hc, if_pos hc]
    refine ⟨_, _, _, rfl, rfl, h.range _ (List.getElem_mem h.next), ?_, rfl, rfl⟩
    refine ⟨?_, rfl, h.draws, ?_, h.fitL, h.fitR, ?_, ?_, h.trainL, h.trainR⟩
    · show (shuffle t.gen.2 t.perm).1 = (shuffle u.gen.2 t.perm).1
      rw [h.gen]
    · show (shuffle t.gen.2 t.perm).2 = (shuffle u.gen.2 t.perm).2
      rw [h.gen]
    · intro e he
      exact h.range e ((hrnd t.gen.2 t.perm).mem_iff.1 he)
    · show 0 < (shuffle t.gen.2 t.perm).1.length
      rw [(hrnd t.gen.2 t.perm).length_eq]
      exact Nat.lt_of_le_of_lt (Nat.zero_le _) h.next
  · rw [if_neg hc, if_neg hc]
    exact ⟨_, _, _, rfl, rfl, h.range _ (List.getElem_mem h.next),
      ⟨rfl, rfl, h.draws, h.gen, h.fitL, h.fitR, h.range, by dsimp only; omega, h.trainL, h.trainR⟩, rfl, rfl⟩

theorem fillPosition_side (hrnd : ∀ g l, (shuffle g l).1.Perm l) (ho : Overwrites ds batch Fit) (hfcn : ds.fcn = true)
    {s : Nat} (hs : s < batch) {l : List ℝ} {t u : Sampling.State ℝ (List ℝ × H)} (W Hh : Nat)
    (hW : t.outs.error.width = W) (hH : t.outs.error.height = Hh)
    (h : Side ds Fit (l.drop (s * blocks W Hh)) t u) (hm : Masked p l s t.outs u.outs) :
    ∃ t' u', fillPosition (scripted shuffle) p ds s t = .done t' ∧
      fillPosition (scripted shuffle) p (unsampled ds) s u = .done u' ∧
      Side ds Fit (l.drop ((s + 1) * blocks W Hh)) t' u' ∧ Masked p l (s + 1) t'.outs u'.outs ∧
      t'.outs.error.width = W ∧ t'.outs.error.height = Hh := by
  obtain ⟨e, t1, u1, h1, h2, h3, h4, h7, h8⟩ := select_side hrnd h
  obtain ⟨o₁, g1, g2, g3, g4⟩ := ho.good.training t.outs s e h.fitL hs h3
  obtain ⟨o₂, k1, k2, k3, k4⟩ := ho.good.training u.outs s e h.fitR hs h3
  obtain ⟨f1, f2, f3, f4⟩ := ho.fills _ _ s e o₁ o₂ h.fitL h.fitR hs h3 g1 k1
  obtain ⟨w1, w2, w3⟩ := ho.good.error o₁ g2
  obtain ⟨v1, v2, v3⟩ := ho.good.error o₂ k2
  have hsh := (ho.shape o₁ o₂ g2 k2).2.2.2
  have hsh0 := (ho.shape t.outs u.outs h.fitL h.fitR).2.2.2
  have hW1 : o₁.error.width = W := by rw [← hW]; exact g3.2.1.symm
  have hH1 : o₁.error.height = Hh := by rw [← hH]; exact g3.2.2.1.symm
  obtain ⟨x, l1, l2⟩ := lossSampling_spec (scripted shuffle) p (sample := s) t1.gen w1 (by omega) w3
  have hgen : t1.gen = (l.drop (s * blocks W Hh), t1.gen.2) := by rw [← h4.draws]
  have hW2 : x.width = W := by rw [← hW1]; exact l2.sh.2.1.symm
  have hH2 : x.height = Hh := by rw [← hH1]; exact l2.sh.2.2.1.symm
  refine ⟨{ t1 with requests := t1.requests ++ [⟨t1.testing, s, e⟩],
                    gen := after (scripted shuffle) t1.gen ((o₁.error.height + 11) / 12 * ((o₁.error.width + 11) / 12)),
                    outs := { o₁ with error := x } },
      { u1 with requests := u1.requests ++ [⟨u1.testing, s, e⟩], outs := o₂ }, ?_, ?_, ?_, ?_, hW2, hH2⟩
  · unfold fillPosition
    rw [h1]
    simp [h4.trainL, h7, g1, hfcn, l1]
  · unfold fillPosition
    rw [h2]
    have k1' : (unsampled ds).getTraining u1.outs s e = some (true, o₂) := by rw [h8]; exact k1
    have hf : (unsampled ds).fcn = false := rfl
    simp [h4.trainR, k1', hf]
  · refine ⟨h4.perm, h4.current, ?_, ?_, ho.good.setError o₁ x g2 l2.wf l2.sh, k2, h4.range, h4.next, h4.trainL,
      h4.trainR⟩
    · dsimp only
      rw [hgen, after_scripted, List.drop_drop, hW1, hH1]
      congr 1
      unfold blocks
      ring
    · dsimp only
      rw [hgen, after_scripted]
      exact h4.gen
  · refine ⟨f1 hm.data, f2 hm.label, f3 hm.helper, ?_⟩
    intro a b c d hin hd
    dsimp only at hin ⊢
    have hin1 : o₁.error.InRange a b c d := l2.sh.inRange.1 hin
    rw [l2.get a b c d hin1, hW2, hH2, hgen, nth_scripted, hW1]
    by_cases hds : d = s
    · subst hds
      have hdr : (l.drop (d * blocks W Hh)).getD (b / 12 * ((W + 11) / 12) + a / 12) 0 =
          l.getD (d * blocks W Hh + (b / 12 * ((W + 11) / 12) + a / 12)) 0 := by
        rw [List.getD_eq_getElem?_getD, List.getD_eq_getElem?_getD, List.getElem?_drop]
      rw [hdr, f4 a b c hin1]
      by_cases hc : c = 0 ∧ p < l.getD (d * blocks W Hh + (b / 12 * ((W + 11) / 12) + a / 12)) 0
      · rw [if_pos hc, if_pos ⟨hc.1, rfl, hc.2⟩]
        rfl
      · rw [if_neg hc, if_neg fun q => hc ⟨q.1, q.2.2⟩]
        rfl
    · have hin0 := g3.inRange.1 hin1
      rw [if_neg fun q => hds q.2.1, Option.none_or, g4 a b c d hin0 hds, k4 a b c d (hsh0.inRange.2 hin0) hds,
        hm.error a b c d hin0 (by omega), hW, hH]

theorem feedForward_side (hrnd : ∀ g l, (shuffle g l).1.Perm l) (ho : Overwrites ds batch Fit) (hfcn : ds.fcn = true)
    {l : List ℝ} {t u : Sampling.State ℝ (List ℝ × H)} (h : Side ds Fit l t u) :
    ∃ t' u', feedForward (scripted shuffle) p ds batch t = .done t' ∧
      feedForward (scripted shuffle) p (unsampled ds) batch u = .done u' ∧
      Side ds Fit (l.drop (batch * blocks u.outs.error.width u.outs.error.height)) t' u' ∧
      t'.outs.data = u'.outs.data ∧ t'.outs.label = u'.outs.label ∧ t'.outs.helper = u'.outs.helper ∧
      Masked p l batch t'.outs u'.outs := by
  have hsh0 := (ho.shape t.outs u.outs h.fitL h.fitR).2.2.2
  have key : ∀ n, n ≤ batch → ∃ t' u', forO n (fillPosition (scripted shuffle) p ds) t = .done t' ∧
      forO n (fillPosition (scripted shuffle) p (unsampled ds)) u = .done u' ∧
      Side ds Fit (l.drop (n * blocks u.outs.error.width u.outs.error.height)) t' u' ∧ Masked p l n t'.outs u'.outs ∧
      t'.outs.error.width = u.outs.error.width ∧ t'.outs.error.height = u.outs.error.height := by
    intro n
    induction n with
    | zero =>
      intro _
      refine ⟨t, u, rfl, rfl, by rw [Nat.zero_mul]; exact h, ⟨fun _ _ _ _ _ hh => absurd hh (by omega),
        fun _ _ _ _ _ hh => absurd hh (by omega), fun _ _ _ _ _ hh => absurd hh (by omega),
        fun _ _ _ _ _ hh => absurd hh (by omega)⟩, hsh0.2.1, hsh0.2.2.1⟩
    | succ n ih =>
      intro hn
      obtain ⟨t1, u1, a1, a2, a3, a4, a5, a6⟩ := ih (by omega)
      obtain ⟨t2, u2, b1, b2, b3⟩ := fillPosition_side (p := p) hrnd ho hfcn (by omega) _ _ a5 a6 a3 a4
      exact ⟨t2, u2, by rw [forO, a1]; exact b1, by rw [forO, a2]; exact b2, b3⟩
  obtain ⟨t', u', a1, a2, a3, a4, -⟩ := key batch (Nat.le_refl _)
  obtain ⟨s1, s2, s3, -⟩ := ho.shape t'.outs u'.outs a3.fitL a3.fitR
  exact ⟨t', u', a1, a2, a3, agreeT_eq (ho.data _ a3.fitL) (ho.data _ a3.fitR) s1 a4.data,
    agreeT_eq (ho.label _ a3.fitL) (ho.label _ a3.fitR) s2 a4.label,
    agreeT_eq (ho.helper _ a3.fitL) (ho.helper _ a3.fitR) s3 a4.helper, a4⟩

end
end CN24.LossSampling
