import Verif.Model.InputTensors

/-! C99: feeding a network from tensors of the user. -/

namespace CN24.Input
variable {D : Type _}

/-! ### Specification: tensors as values -/

/-- A tensor as a value: its dimensions and its elements (`none`: never written). -/
abbrev Val (D : Type _) := Shape × List (Option D)

/-- No tensor. -/
def noVal : Val D := (⟨0, 0, 0, 0⟩, [])

/-- What an operation means for the values of the tensors. -/
def specStep (v : Nat → Val D) : Op D → Nat → Val D
  | .write n e x => fun k => if k = n then ((v n).1, (v n).2.set e (some x)) else v k
  | .resize n s => fun k =>
    if k = n then
      if s.elements = 0 then noVal
      else if (v n).2.length = s.elements then (s, (v n).2)
      else (s, List.replicate s.elements none)
    else v k

def specFrom (v : Nat → Val D) (ops : List (Op D)) : Nat → Val D := ops.foldl specStep v

/-- The values after the operations of a program. -/
def valuesAfter (ops : List (Op D)) : Nat → Val D := specFrom (fun _ => noVal) ops

/-- Every write is inside its tensor. -/
def Fine (v : Nat → Val D) : List (Op D) → Prop
  | [] => True
  | op :: ops => (∀ n e x, op = .write n e x → e < (v n).2.length) ∧ Fine (specStep v op) ops

theorem fine_append {v : Nat → Val D} {a b : List (Op D)} : Fine v (a ++ b) ↔ Fine v a ∧ Fine (specFrom v a) b := by
  induction a generalizing v with
  | nil => simp [Fine, specFrom]
  | cons op a ih => simp [Fine, specFrom, ih, and_assoc]

/-! ### The memory holds the values -/

/-- The block of the object holds the elements. -/
def Holds (m : Mem D) (o : Obj) (l : List (Option D)) : Prop :=
  (o.block = none ∧ l = []) ∨ ∃ b, o.block = some b ∧ l ≠ [] ∧ m.blocks[b]? = some (some l)

structure Inv (w : World D) (v : Nat → Val D) : Prop where
  shape : ∀ n, (w.users n).shape = (v n).1
  length : ∀ n, (v n).2.length = (v n).1.elements
  holds : ∀ n, Holds w.mem (w.users n) (v n).2
  inj : ∀ n k b, (w.users n).block = some b → (w.users k).block = some b → n = k

theorem inv_start : Inv (D := D) World.start fun _ => noVal :=
  ⟨fun _ => rfl, fun _ => rfl, fun _ => Or.inl ⟨rfl, rfl⟩, fun _ _ _ h => nomatch h⟩

theorem Holds.lt {m : Mem D} {o : Obj} {l : List (Option D)} (h : Holds m o l) {b : Nat} (hb : o.block = some b) :
    b < m.blocks.length := by
  rcases h with ⟨h, -⟩ | ⟨b', h, -, h'⟩
  · rw [hb] at h; cases h
  · rw [hb] at h
    cases h
    exact (List.getElem?_eq_some_iff.1 h').1

/-- Reading through an object that holds the elements. -/
theorem Holds.read {m : Mem D} {o : Obj} {l : List (Option D)} (h : Holds m o l) (e : Nat) : m.read o e = l[e]? := by
  unfold Mem.read
  rcases h with ⟨h, rfl⟩ | ⟨b, h, -, h'⟩
  · rw [h]; rfl
  · rw [h]; simp [h']

/-- Memory that is kept below `n`. -/
def SameBelow (n : Nat) (m m' : Mem D) : Prop := m.blocks.length ≤ m'.blocks.length ∧ ∀ b, b < n → m'.blocks[b]? = m.blocks[b]?

theorem alloc_same (m : Mem D) (s : Shape) : SameBelow m.blocks.length m (m.alloc s).1 := by
  unfold Mem.alloc
  split
  · exact ⟨Nat.le_refl _, fun _ _ => rfl⟩
  · exact ⟨by simp, fun b hb => List.getElem?_append_left hb⟩

theorem SameBelow.trans {n n' : Nat} {a b c : Mem D} (h : SameBelow n a b) (h' : SameBelow n' b c) (hn : n ≤ n') : SameBelow n a c :=
  ⟨Nat.le_trans h.1 h'.1, fun k hk => (h'.2 k (by omega)).trans (h.2 k hk)⟩

theorem Inv.grow {w : World D} {v : Nat → Val D} (h : Inv w v) {m : Mem D} (hm : SameBelow w.mem.blocks.length w.mem m) :
    Inv ⟨m, w.users⟩ v := by
  refine ⟨h.shape, h.length, fun n => ?_, h.inj⟩
  rcases h.holds n with h1 | ⟨b, h1, h2, h3⟩
  · exact Or.inl h1
  · exact Or.inr ⟨b, h1, h2, (hm.2 b ((h.holds n).lt h1)).trans h3⟩

/-- What a new block holds. -/
theorem alloc_holds (m : Mem D) (s : Shape) : Holds (m.alloc s).1 (m.alloc s).2 (List.replicate s.elements none) := by
  unfold Mem.alloc
  split
  · next h => exact Or.inl ⟨rfl, by rw [h]; rfl⟩
  · next h => exact Or.inr ⟨_, rfl, by simp [h], by simp⟩

theorem alloc_block {m : Mem D} {s : Shape} {b : Nat} (h : (m.alloc s).2.block = some b) : b = m.blocks.length := by
  unfold Mem.alloc at h
  split at h
  · cases h
  · exact (Option.some.inj h).symm

theorem alloc_shape (m : Mem D) (s : Shape) (h : s.elements ≠ 0) : (m.alloc s).2.shape = s := by
  unfold Mem.alloc
  rw [if_neg h]

/-- No object of the user points to the block. -/
def Unowned (w : World D) (b : Nat) : Prop := b < w.mem.blocks.length ∧ ∀ n, (w.users n).block ≠ some b

/-- One operation. -/
theorem exec_ok {w : World D} {v : Nat → Val D} (h : Inv w v) (op : Op D) (hf : ∀ n e x, op = .write n e x → e < (v n).2.length) :
    ∃ w', exec w op = some w' ∧ Inv w' (specStep v op) ∧
      (∀ n, (∀ s, op = .resize n s → s.elements = (v n).2.length) → (w'.users n).block = (w.users n).block) ∧
      (∀ b, Unowned w b → Unowned w' b ∧ w'.mem.blocks[b]? = w.mem.blocks[b]?) ∧
      (∀ n s b, op = .resize n s → s.elements ≠ (v n).2.length → (w.users n).block = some b →
        Unowned w' b ∧ w'.mem.blocks[b]? = some none) := by
  cases op with
  | write n e x =>
    have he := hf n e x rfl
    rcases h.holds n with ⟨-, h1⟩ | ⟨b, h1, h2, h3⟩
    · rw [h1] at he; cases he
    have hb : b < w.mem.blocks.length := (h.holds n).lt h1
    refine ⟨⟨⟨w.mem.blocks.set b (some ((v n).2.set e (some x)))⟩, w.users⟩, ?_, ⟨fun k => ?_, fun k => ?_, fun k => ?_, h.inj⟩, fun _ _ => rfl,
      fun b' hb' => ?_, fun _ _ _ hop => nomatch hop⟩
    · show (w.mem.write (w.users n) e x).map _ = _
      unfold Mem.write
      rw [h1]
      simp [h3, he]
    · show (w.users k).shape = (if k = n then ((v n).1, (v n).2.set e (some x)) else v k).1
      split
      · next hk => subst hk; exact h.shape k
      · exact h.shape k
    · show (if k = n then ((v n).1, (v n).2.set e (some x)) else v k).2.length = (if k = n then ((v n).1, (v n).2.set e (some x)) else v k).1.elements
      split
      · simpa using h.length n
      · exact h.length k
    · show Holds _ (w.users k) (if k = n then ((v n).1, (v n).2.set e (some x)) else v k).2
      split
      · next hk =>
        subst hk
        refine Or.inr ⟨b, h1, fun h0 => h2 ?_, by simp [hb]⟩
        simpa using congrArg List.length h0
      · next hk =>
        rcases h.holds k with h4 | ⟨b', h4, h5, h6⟩
        · exact Or.inl h4
        · refine Or.inr ⟨b', h4, h5, ?_⟩
          have : b ≠ b' := fun hbb => hk (h.inj k n b' h4 (hbb ▸ h1))
          simpa [List.getElem?_set, this] using h6
    · have : b ≠ b' := fun hbb => hb'.2 n (hbb ▸ h1)
      exact ⟨⟨by simpa using hb'.1, hb'.2⟩, by simp [this]⟩
  | resize n s =>
    by_cases hc : (w.users n).block ≠ none ∧ (w.users n).shape.elements = s.elements
    · have hlen : (v n).2.length = s.elements := by rw [h.length n, ← h.shape n]; exact hc.2
      have hs : s.elements ≠ 0 := by
        rcases h.holds n with ⟨h1, -⟩ | ⟨b, -, h2, -⟩
        · exact absurd h1 hc.1
        · intro h0
          rw [h0] at hlen
          exact h2 (List.length_eq_zero_iff.1 hlen)
      have hspec : specStep v (.resize n s) = fun k => if k = n then (s, (v n).2) else v k := by
        funext k
        simp [specStep, hs, hlen]
      refine ⟨⟨w.mem, fun k => if k = n then ⟨s, (w.users n).block⟩ else w.users k⟩, ?_, ?_, fun k _ => ?_, fun b hb => ⟨⟨hb.1, fun k => ?_⟩, rfl⟩,
        fun n' s' b hop hne => ?_⟩
      · show (w.mem.resize (w.users n) s).map _ = _
        unfold Mem.resize
        rw [if_pos hc]
        rfl
      · rw [hspec]
        refine ⟨fun k => ?_, fun k => ?_, fun k => ?_, fun k k' b => ?_⟩
        · dsimp only; split
          · rfl
          · exact h.shape k
        · split
          · exact hlen
          · exact h.length k
        · dsimp only; split
          · exact h.holds n
          · exact h.holds k
        · have e (k : Nat) : (if k = n then (⟨s, (w.users n).block⟩ : Obj) else w.users k).block = (w.users k).block := by
            split
            · next hk => rw [hk]
            · rfl
          dsimp only
          rw [e, e]
          exact h.inj k k' b
      · dsimp only; split
        · next hk => rw [hk]
        · rfl
      · dsimp only; split
        · exact hb.2 n
        · exact hb.2 k
      · cases hop
        exact absurd hlen.symm hne
    · -- the old block is released, a new one is allocated
      have hfree : ∃ m, w.mem.free (w.users n).block = some m ∧ m.blocks.length = w.mem.blocks.length ∧
          (∀ b, (w.users n).block ≠ some b → m.blocks[b]? = w.mem.blocks[b]?) ∧
          (∀ b, (w.users n).block = some b → m.blocks[b]? = some none) := by
        rcases h.holds n with ⟨h1, -⟩ | ⟨b, h1, -, h3⟩
        · refine ⟨w.mem, by rw [h1]; rfl, rfl, fun _ _ => rfl, fun b hb => ?_⟩
          rw [h1] at hb; cases hb
        · have hb : b < w.mem.blocks.length := (h.holds n).lt h1
          refine ⟨⟨w.mem.blocks.set b none⟩, by rw [h1]; simp [Mem.free, h3], by simp, fun b' hb' => ?_, fun b' hb' => ?_⟩
          · have : b ≠ b' := fun hbb => hb' (hbb ▸ h1)
            simp [this]
          · rw [h1] at hb'
            cases hb'
            simp [hb]
      obtain ⟨m, f1, f2, f3, f4⟩ := hfree
      have hsame := alloc_same m s
      have hnew : ∀ k b, k ≠ n → (w.users k).block = some b → (m.alloc s).1.blocks[b]? = w.mem.blocks[b]? := by
        intro k b hk hb
        have hlt := (h.holds k).lt hb
        rw [hsame.2 b (by omega), f3 b fun hnb => hk (h.inj k n b hb hnb)]
      have hspec : specStep v (.resize n s) = fun k => if k = n then ((m.alloc s).2.shape, List.replicate s.elements none) else v k := by
        funext k
        unfold specStep
        dsimp only
        split
        · next hk =>
          by_cases h0 : s.elements = 0
          · rw [if_pos h0, h0]
            unfold Mem.alloc
            rw [if_pos h0]
            rfl
          · rw [if_neg h0, if_neg, alloc_shape m s h0]
            intro hl
            refine hc ⟨fun hnone => ?_, by rw [h.shape n, ← h.length n]; exact hl⟩
            rcases h.holds n with ⟨-, h2⟩ | ⟨b, h1, -⟩
            · rw [h2] at hl
              exact h0 hl.symm
            · rw [h1] at hnone; cases hnone
        · rfl
      refine ⟨⟨(m.alloc s).1, fun k => if k = n then (m.alloc s).2 else w.users k⟩, ?_, ?_, fun k hk => ?_, fun b hb => ⟨⟨?_, fun k => ?_⟩, ?_⟩,
        fun n' s' b hop hne hb => ?_⟩
      · show (w.mem.resize (w.users n) s).map _ = _
        unfold Mem.resize
        rw [if_neg hc, f1]
        rfl
      · rw [hspec]
        refine ⟨fun k => ?_, fun k => ?_, fun k => ?_, fun k k' b => ?_⟩
        · dsimp only; split
          · rfl
          · exact h.shape k
        · split
          · by_cases h0 : s.elements = 0
            · unfold Mem.alloc
              rw [if_pos h0, h0]
              rfl
            · rw [alloc_shape m s h0, List.length_replicate]
          · exact h.length k
        · dsimp only; split
          · exact alloc_holds m s
          · next hk =>
            rcases h.holds k with h4 | ⟨b, h4, h5, h6⟩
            · exact Or.inl h4
            · exact Or.inr ⟨b, h4, h5, (hnew k b hk h4).trans h6⟩
        · dsimp only
          intro a1 a2
          split at a1 <;> split at a2
          · next e1 e2 => rw [e1, e2]
          · next e1 e2 =>
            have := alloc_block a1
            have := (h.holds k').lt a2
            omega
          · next e1 e2 =>
            have := alloc_block a2
            have := (h.holds k).lt a1
            omega
          · exact h.inj k k' b a1 a2
      · dsimp only
        split
        · next hkn =>
          subst hkn
          have hl := hk s rfl
          rcases h.holds k with ⟨h1, h2⟩ | ⟨b, h1, -⟩
          · rw [h1]
            have h0 : s.elements = 0 := by rw [hl, h2]; rfl
            unfold Mem.alloc
            rw [if_pos h0]
            rfl
          · refine absurd ⟨by rw [h1]; simp, ?_⟩ hc
            rw [h.shape k, ← h.length k, hl]
        · rfl
      · have := hsame.1
        have := hb.1
        show b < (m.alloc s).1.blocks.length
        omega
      · dsimp only; split
        · intro hbk
          have := alloc_block hbk
          have := hb.1
          omega
        · exact hb.2 k
      · have := hb.1
        exact (hsame.2 b (by omega)).trans (f3 b (hb.2 n))
      · cases hop
        have hlt := (h.holds n).lt hb
        refine ⟨⟨?_, fun k => ?_⟩, ?_⟩
        · have := hsame.1
          show b < (m.alloc s).1.blocks.length
          omega
        · dsimp only; split
          · intro hbk
            have := alloc_block hbk
            omega
          · next hk => exact fun hkb => hk (h.inj k n b hkb hb)
        · exact (hsame.2 b (by omega)).trans (f4 b hb)

/-- Several operations. -/
theorem run_ok {w : World D} {v : Nat → Val D} (h : Inv w v) (ops : List (Op D)) (hf : Fine v ops) :
    ∃ w', run ops w = some w' ∧ Inv w' (specFrom v ops) ∧
      (∀ n, (∀ s, .resize n s ∈ ops → s.elements = (v n).2.length) → (w'.users n).block = (w.users n).block) ∧
      (∀ b, Unowned w b → Unowned w' b ∧ w'.mem.blocks[b]? = w.mem.blocks[b]?) := by
  induction ops generalizing w v with
  | nil => exact ⟨w, rfl, h, fun _ _ => rfl, fun _ hb => ⟨hb, rfl⟩⟩
  | cons op ops ih =>
    obtain ⟨w1, e1, i1, k1, u1, -⟩ := exec_ok h op hf.1
    obtain ⟨w2, e2, i2, k2, u2⟩ := ih i1 hf.2
    refine ⟨w2, ?_, i2, fun n hn => ?_, fun b hb => ?_⟩
    · show (exec w op).bind (run ops) = _
      rw [e1]
      exact e2
    · have hlen : (specStep v op n).2.length = (v n).2.length := by
        cases op with
        | write k e x =>
          show (if n = k then ((v k).1, (v k).2.set e (some x)) else v n).2.length = _
          split
          · next hk => simp [hk]
          · rfl
        | resize k s =>
          show (if n = k then _ else v n).2.length = _
          split
          · next hk =>
            subst hk
            have := hn s List.mem_cons_self
            by_cases h0 : s.elements = 0
            · rw [if_pos h0, ← this, h0]; rfl
            · rw [if_neg h0, if_pos this.symm]
          · rfl
      exact (k2 n fun s hs => (hn s (List.mem_cons_of_mem _ hs)).trans hlen.symm).trans
        (k1 n fun s hs => hn s (hs ▸ List.mem_cons_self))
    · obtain ⟨b1, b2⟩ := u1 b hb
      obtain ⟨b3, b4⟩ := u2 b b1
      exact ⟨b3, b4.trans b2⟩

/-- The graph sets up the layer's node (the layer describes four buffers, src/net/InputLayer.cpp:165-178). -/
def setUp (m : Mem D) (l : Layer) : Outcome (Mem D × List (Option Comb)) :=
  initNode (createOutputs m l) (fun i o => .done (inputConnect i o)) 4 []

theorem shadowing_same (m : Mem D) (t : Obj) : SameBelow m.blocks.length m (m.shadowing t).1 := alloc_same m t.shape

theorem combined_same (m : Mem D) (s : Shape) : SameBelow m.blocks.length m (m.combined s).1 :=
  (alloc_same m s).trans (alloc_same _ s) (alloc_same m s).1

/-- C99: a network that is fed from four tensors of the user sees, at any later time, exactly what the tensors hold at that time: whatever the
user wrote before and after constructing the layer (with every write inside its tensor), as long as they do not resize the tensors to
another number of elements.  The dimensions stay those that the tensors had when the layer was constructed. -/
theorem C99_sees_current_partial (before after : List (Op D)) (d l h g : Nat) (hb : Fine (fun _ => noVal) before)
    (ha : Fine (valuesAfter before) after)
    (hs : ∀ n ∈ [l, h, g], (valuesAfter before n).1.samples = (valuesAfter before d).1.samples)
    (hk : ∀ n ∈ [d, l, h, g], ∀ s, .resize n s ∈ after → s.elements = (valuesAfter before n).1.elements) :
    ∃ w m layer m' outs w', run before World.start = some w ∧
      make4 w.mem (w.users d) (w.users l) (w.users h) (w.users g) = .done (m, layer) ∧
      setUp m layer = .done (m', outs) ∧ run after ⟨m', w.users⟩ = some w' ∧ outs.length = 4 ∧
      ∀ (i : Nat) n, [d, l, h, g][i]? = some n → ∃ c, outs[i]? = some (some c) ∧ c.data.shape = (valuesAfter before n).1 ∧
        ∀ e, w'.mem.read c.data e = (valuesAfter (before ++ after) n).2[e]? := by
  obtain ⟨w, e1, i1, -, -⟩ := run_ok inv_start before hb
  let a1 := w.mem.shadowing (w.users d)
  let a2 := a1.1.shadowing (w.users l)
  let a3 := a2.1.shadowing (w.users h)
  let a4 := a3.1.shadowing (w.users g)
  have s1 := shadowing_same w.mem (w.users d)
  have s2 := s1.trans (shadowing_same a1.1 (w.users l)) s1.1
  have s3 := s2.trans (shadowing_same a2.1 (w.users h)) s2.1
  have s4 := s3.trans (shadowing_same a3.1 (w.users g)) s3.1
  have i2 := i1.grow s4
  obtain ⟨w', e2, i3, k3, -⟩ := run_ok i2 after ha
  have q (n : Nat) (hn : n ∈ [l, h, g]) : ¬(w.users d).shape.samples ≠ (w.users n).shape.samples := by
    rw [i1.shape, i1.shape]
    exact fun hne => hne (hs n hn).symm
  refine ⟨w, a4.1, ⟨a1.2, some a2.2, a3.2, some a4.2⟩, a4.1, [some a1.2, some a2.2, some a3.2, some a4.2], w', e1, ?_, rfl, e2, rfl, ?_⟩
  · unfold make4
    rw [if_neg (q h (by simp)), if_neg (q l (by simp)), if_neg (q g (by simp))]
  · have fin (n : Nat) (hn : n ∈ [d, l, h, g]) (e : Nat) : w'.mem.read (w.users n) e = (valuesAfter (before ++ after) n).2[e]? := by
      have hblock := k3 n fun s hs => (hk n hn s hs).trans (i1.length n).symm
      have : w'.mem.read (w.users n) e = w'.mem.read (w'.users n) e := by
        unfold Mem.read
        rw [hblock]
      rw [this, (i3.holds n).read]
      unfold valuesAfter specFrom
      rw [List.foldl_append]
    intro i n hi
    have hi4 : i < 4 := (List.getElem?_eq_some_iff.1 hi).1
    rcases (by omega : i = 0 ∨ i = 1 ∨ i = 2 ∨ i = 3) with rfl | rfl | rfl | rfl <;> cases hi
    · exact ⟨_, rfl, i1.shape d, fin d (by simp)⟩
    · exact ⟨_, rfl, i1.shape l, fin l (by simp)⟩
    · exact ⟨_, rfl, i1.shape h, fin h (by simp)⟩
    · exact ⟨_, rfl, i1.shape g, fin g (by simp)⟩

/-- C99: the number of samples is what the constructors check, and all they check. -/
theorem C99_samples (m : Mem D) (d l h g : Obj) :
    (make4 m d l h g = .fatal ↔ ¬ (l.shape.samples = d.shape.samples ∧ h.shape.samples = d.shape.samples ∧ g.shape.samples = d.shape.samples)) ∧
    (make2 m d h = .fatal ↔ h.shape.samples ≠ d.shape.samples) ∧ make4 m d l h g ≠ .undefined ∧ make2 m d h ≠ .undefined := by
  unfold make4 make2
  refine ⟨?_, ?_, ?_, ?_⟩
  · split
    · next h1 => simp; omega
    · split
      · next h1 h2 => simp; omega
      · split
        · next h1 h2 h3 => simp; omega
        · next h1 h2 h3 => simp; omega
  · split
    · next h1 => simp; omega
    · next h1 => simp; omega
  · split
    · simp
    · split
      · simp
      · split <;> simp
  · split <;> simp

/-- The code does not notice other differences: whatever tensors with the same number of samples are given, the layer is constructed
and its node set up (the checks in `Connect` are commented out). -/
theorem C99_sizes_unchecked (m : Mem D) (d l h g : Obj) (hl : l.shape.samples = d.shape.samples) (hh : h.shape.samples = d.shape.samples)
    (hg : g.shape.samples = d.shape.samples) : ∃ m' layer, make4 m d l h g = .done (m', layer) ∧
      setUp m' layer = .done (m', [some layer.data, layer.label, some layer.helper, layer.weight]) := by
  unfold make4
  rw [if_neg (by omega), if_neg (by omega), if_neg (by omega)]
  exact ⟨_, _, rfl, rfl⟩

theorem Unowned.of_lt {w : World D} {v : Nat → Val D} (h : Inv w v) {m : Mem D} {b : Nat} (h1 : w.mem.blocks.length ≤ b)
    (h2 : b < m.blocks.length) : Unowned ⟨m, w.users⟩ b := by
  refine ⟨h2, fun n hn => ?_⟩
  have := (h.holds n).lt hn
  omega

/-- C99, a defect: a network that is fed from one tensor reads a label, a helper and a weight tensor that nobody ever writes:
their elements are indeterminate, whatever the user does. -/
theorem C99_one_tensor_unset (before after : List (Op D)) (d : Nat) (hb : Fine (fun _ => noVal) before) (ha : Fine (valuesAfter before) after)
    (hd : (valuesAfter before d).1.elements ≠ 0) :
    ∃ w m layer m' outs w', run before World.start = some w ∧ make1 w.mem (w.users d) = .done (m, layer) ∧
      setUp m layer = .done (m', outs) ∧ run after ⟨m', w.users⟩ = some w' ∧ outs.length = 4 ∧
      ∀ (i : Nat) s, i ≠ 0 → [(valuesAfter before d).1, ⟨(valuesAfter before d).1.samples, 1, 1, 1⟩,
          ⟨(valuesAfter before d).1.samples, (valuesAfter before d).1.width, (valuesAfter before d).1.height, 2⟩,
          (valuesAfter before d).1][i]? = some s →
        ∃ c, outs[i]? = some (some c) ∧ c.data.shape = s ∧ 0 < s.elements ∧ ∀ e, e < s.elements → w'.mem.read c.data e = some none := by
  obtain ⟨w, e1, i1, -, -⟩ := run_ok inv_start before hb
  have hshape : (valuesAfter before d).1 = (w.users d).shape := (i1.shape d).symm
  rw [hshape] at hd ⊢
  have hpos : (w.users d).shape.samples ≠ 0 ∧ (w.users d).shape.maps ≠ 0 ∧ (w.users d).shape.height ≠ 0 ∧ (w.users d).shape.width ≠ 0 := by
    unfold Shape.elements at hd
    simpa [not_or, and_assoc] using hd
  have hs1 : (⟨(w.users d).shape.samples, 1, 1, 1⟩ : Shape).elements ≠ 0 := by
    simp [Shape.elements, hpos.1]
  have hs2 : (⟨(w.users d).shape.samples, (w.users d).shape.width, (w.users d).shape.height, 2⟩ : Shape).elements ≠ 0 := by
    simp [Shape.elements, hpos]
  let a0 := w.mem.alloc ⟨(w.users d).shape.samples, (w.users d).shape.width, (w.users d).shape.height, 2⟩
  let a1 := a0.1.shadowing (w.users d)
  let a2 := a1.1.shadowing a0.2
  let a3 := a2.1.combined ⟨(w.users d).shape.samples, 1, 1, 1⟩
  let a4 := a3.1.combined (w.users d).shape
  have s0 := alloc_same w.mem ⟨(w.users d).shape.samples, (w.users d).shape.width, (w.users d).shape.height, 2⟩
  have t1 := shadowing_same a0.1 (w.users d)
  have t2 := shadowing_same a1.1 a0.2
  have t3 := combined_same a2.1 ⟨(w.users d).shape.samples, 1, 1, 1⟩
  have t4 := combined_same a3.1 (w.users d).shape
  have s4 := ((s0.trans t1 s0.1).trans t2 (s0.trans t1 s0.1).1).trans t3 ((s0.trans t1 s0.1).trans t2 (s0.trans t1 s0.1).1).1
  have s5 := s4.trans t4 s4.1
  have i2 := i1.grow s5
  obtain ⟨w', e2, i3, k3, u3⟩ := run_ok i2 after ha
  have hmake : make1 w.mem (w.users d) = .done (a2.1, ⟨a1.2, none, a2.2, none⟩) := by
    show make2 a0.1 (w.users d) a0.2 = _
    unfold make2
    rw [if_neg]
    show ¬(w.users d).shape.samples ≠ (w.mem.alloc _).2.shape.samples
    rw [alloc_shape w.mem _ hs2]
    simp
  have hset : setUp a2.1 ⟨a1.2, none, a2.2, none⟩ = .done (a4.1, [some a1.2, some a3.2, some a2.2, some a4.2]) := rfl
  -- a block that was allocated between the user's program and the set-up, and not touched since
  have fresh (o : Obj) (s : Shape) (m0 : Mem D) (hm0 : w.mem.blocks.length ≤ m0.blocks.length) (ho : o = (m0.alloc s).2)
      (hlive : SameBelow (m0.alloc s).1.blocks.length (m0.alloc s).1 a4.1) (e : Nat) (he : e < s.elements) :
      w'.mem.read o e = some none := by
    have hh := alloc_holds m0 s
    rw [← ho] at hh
    rcases hh with ⟨-, h2⟩ | ⟨b, h1, h2, h3⟩
    · have := congrArg List.length h2
      simp at this
      omega
    · have hbe : b = m0.blocks.length := alloc_block (ho ▸ h1)
      have hb' : b < (m0.alloc s).1.blocks.length := (List.getElem?_eq_some_iff.1 h3).1
      have h4 := (hlive.2 b hb').trans h3
      obtain ⟨-, u⟩ := u3 b (Unowned.of_lt i1 (by omega) (Nat.lt_of_lt_of_le hb' hlive.1))
      unfold Mem.read
      rw [h1]
      have h5 : w'.mem.blocks[b]? = some (some (List.replicate s.elements none)) := u.trans h4
      simp [h5, he]
  refine ⟨w, a2.1, _, a4.1, _, w', e1, hmake, hset, e2, rfl, fun i s hi0 hi => ?_⟩
  have hi4 : i < 4 := (List.getElem?_eq_some_iff.1 hi).1
  rcases (by omega : i = 1 ∨ i = 2 ∨ i = 3) with rfl | rfl | rfl <;> cases hi
  · refine ⟨a3.2, rfl, alloc_shape _ _ hs1, by omega, fun e he => fresh _ _ a2.1 ((s0.trans t1 s0.1).trans t2 (s0.trans t1 s0.1).1).1 rfl ?_ e he⟩
    exact (alloc_same _ _).trans t4 (alloc_same _ _).1
  · refine ⟨a2.2, rfl, alloc_shape _ _ hs2, by omega, fun e he => fresh _ _ w.mem (Nat.le_refl _) rfl ?_ e he⟩
    exact ((t1.trans t2 t1.1).trans t3 (t1.trans t2 t1.1).1).trans t4 ((t1.trans t2 t1.1).trans t3 (t1.trans t2 t1.1).1).1
  · refine ⟨a4.2, rfl, alloc_shape _ _ hd, by omega, fun e he => fresh _ _ a3.1 s4.1 rfl ?_ e he⟩
    exact alloc_same _ _

/-- C99, a limit of the code: after one of the tensors has been resized to another number of elements, the network reads released memory,
whatever the user does afterwards. -/
theorem C99_resize_undefined (before more after : List (Op D)) (d l h g : Nat) (n : Nat) (s : Shape) (hb : Fine (fun _ => noVal) before)
    (ha : Fine (valuesAfter before) (more ++ .resize n s :: after))
    (hs : ∀ n ∈ [l, h, g], (valuesAfter before n).1.samples = (valuesAfter before d).1.samples)
    (hk : ∀ s, .resize n s ∈ more → s.elements = (valuesAfter before n).1.elements)
    (h0 : (valuesAfter before n).1.elements ≠ 0) (hne : s.elements ≠ (valuesAfter before n).1.elements) :
    ∃ w m layer m' outs w', run before World.start = some w ∧
      make4 w.mem (w.users d) (w.users l) (w.users h) (w.users g) = .done (m, layer) ∧
      setUp m layer = .done (m', outs) ∧ run (more ++ .resize n s :: after) ⟨m', w.users⟩ = some w' ∧ outs.length = 4 ∧
      ∀ (i : Nat), [d, l, h, g][i]? = some n → ∃ c, outs[i]? = some (some c) ∧ ∀ e, w'.mem.read c.data e = none := by
  obtain ⟨w, e1, i1, -, -⟩ := run_ok inv_start before hb
  let a1 := w.mem.shadowing (w.users d)
  let a2 := a1.1.shadowing (w.users l)
  let a3 := a2.1.shadowing (w.users h)
  let a4 := a3.1.shadowing (w.users g)
  have s1 := shadowing_same w.mem (w.users d)
  have s2 := s1.trans (shadowing_same a1.1 (w.users l)) s1.1
  have s3 := s2.trans (shadowing_same a2.1 (w.users h)) s2.1
  have s4 := s3.trans (shadowing_same a3.1 (w.users g)) s3.1
  have i2 := i1.grow s4
  have ⟨f1, f2⟩ := fine_append.1 ha
  obtain ⟨w1, e2, i3, k3, -⟩ := run_ok i2 more f1
  have hlen : (specFrom (valuesAfter before) more n).2.length = (valuesAfter before n).2.length := by
    have aux : ∀ (ops : List (Op D)) (v : Nat → Val D), (∀ s, .resize n s ∈ ops → s.elements = (v n).2.length) →
        (specFrom v ops n).2.length = (v n).2.length := by
      intro ops
      induction ops with
      | nil => exact fun _ _ => rfl
      | cons op ops ih =>
        intro v hv
        have hstep : (specStep v op n).2.length = (v n).2.length := by
          cases op with
          | write k e x =>
            show (if n = k then ((v k).1, (v k).2.set e (some x)) else v n).2.length = _
            split
            · next hk => simp [hk]
            · rfl
          | resize k s =>
            show (if n = k then _ else v n).2.length = _
            split
            · next hk =>
              subst hk
              have := hv s List.mem_cons_self
              by_cases h0 : s.elements = 0
              · rw [if_pos h0, ← this, h0]; rfl
              · rw [if_neg h0, if_pos this.symm]
            · rfl
        exact (ih (specStep v op) fun s hs => (hv s (List.mem_cons_of_mem _ hs)).trans hstep.symm).trans hstep
    exact aux more _ fun s hs => (hk s hs).trans (i1.length n).symm
  obtain ⟨w2, e3, i4, -, -, r4⟩ := exec_ok i3 (.resize n s) f2.1
  obtain ⟨w3, e4, -, -, u5⟩ := run_ok i4 after f2.2
  have hblock : (w1.users n).block = (w.users n).block := k3 n fun s hs => (hk s hs).trans (i1.length n).symm
  have hdead : ∀ e, w3.mem.read (w.users n) e = none := by
    intro e
    rcases i1.holds n with ⟨-, h2⟩ | ⟨b, h1, -, -⟩
    · have := i1.length n
      change (valuesAfter before n).2.length = _ at this
      change (valuesAfter before n).2 = [] at h2
      rw [h2] at this
      exact absurd this.symm h0
    · obtain ⟨v1, v2⟩ := r4 n s b rfl (fun hh => hne ((hh.trans hlen).trans (i1.length n))) (hblock.trans h1)
      obtain ⟨-, v3⟩ := u5 b v1
      unfold Mem.read
      rw [h1]
      simp [v3.trans v2]
  have q (n : Nat) (hn : n ∈ [l, h, g]) : ¬(w.users d).shape.samples ≠ (w.users n).shape.samples := by
    rw [i1.shape, i1.shape]
    exact fun hne => hne (hs n hn).symm
  refine ⟨w, a4.1, ⟨a1.2, some a2.2, a3.2, some a4.2⟩, a4.1, [some a1.2, some a2.2, some a3.2, some a4.2], w3, e1, ?_, rfl, ?_, rfl, fun i hi => ?_⟩
  · unfold make4
    rw [if_neg (q h (by simp)), if_neg (q l (by simp)), if_neg (q g (by simp))]
  · unfold run at e2 e4 ⊢
    rw [List.foldlM_append, e2]
    show (exec w1 (.resize n s)).bind _ = _
    rw [e3]
    exact e4
  · have hi4 : i < 4 := (List.getElem?_eq_some_iff.1 hi).1
    rcases (by omega : i = 0 ∨ i = 1 ∨ i = 2 ∨ i = 3) with rfl | rfl | rfl | rfl <;> cases hi <;> exact ⟨_, rfl, hdead⟩

/-! ### Nodes and their buffers -/

/-- C99: the node of a dataset layer gets its four buffers with the dimensions of the dataset. -/
theorem C99_dataset_node (m : Mem D) (method : Method) (batch width height inputMaps labelMaps : Nat)
    (h : batch ≠ 0 ∧ width ≠ 0 ∧ height ≠ 0 ∧ inputMaps ≠ 0 ∧ labelMaps ≠ 0) :
    ∃ m', ∃ cs : List Comb, initNode (datasetOutputs m method batch width height inputMaps labelMaps) datasetConnect 4 [] = .done (m', cs.map some) ∧
      cs.map (fun c => (c.data.shape, c.delta.shape)) =
        (show List Shape from match method with
        | .fcn => [⟨batch, width, height, inputMaps⟩, ⟨batch, width, height, labelMaps⟩, ⟨batch, width, height, 2⟩, ⟨batch, width, height, 1⟩]
        | .patch => [⟨batch, width, height, inputMaps⟩, ⟨batch, 1, 1, labelMaps⟩, ⟨batch, 1, 1, 2⟩, ⟨batch, 1, 1, 1⟩]).map fun s => (s, s) := by
  obtain ⟨h1, h2, h3, h4, h5⟩ := h
  have k (m : Mem D) (s : Shape) (hs : s.elements ≠ 0) : ((m.combined s).2.data.shape, (m.combined s).2.delta.shape) = (s, s) := by
    show ((m.alloc s).2.shape, ((m.alloc s).1.alloc s).2.shape) = _
    rw [alloc_shape _ s hs, alloc_shape _ s hs]
  cases method
  · let c1 := m.combined ⟨batch, width, height, inputMaps⟩
    let c2 := c1.1.combined ⟨batch, 1, 1, labelMaps⟩
    let c3 := c2.1.combined ⟨batch, 1, 1, 2⟩
    let c4 := c3.1.combined ⟨batch, 1, 1, 1⟩
    refine ⟨c4.1, [c1.2, c2.2, c3.2, c4.2], rfl, ?_⟩
    exact List.cons_eq_cons.2 ⟨k m _ (by simp [Shape.elements, *]), List.cons_eq_cons.2 ⟨k c1.1 _ (by simp [Shape.elements, *]),
      List.cons_eq_cons.2 ⟨k c2.1 _ (by simp [Shape.elements, *]), List.cons_eq_cons.2 ⟨k c3.1 _ (by simp [Shape.elements, *]), rfl⟩⟩⟩⟩
  · let c1 := m.combined ⟨batch, width, height, inputMaps⟩
    let c2 := c1.1.combined ⟨batch, width, height, labelMaps⟩
    let c3 := c2.1.combined ⟨batch, width, height, 2⟩
    let c4 := c3.1.combined ⟨batch, width, height, 1⟩
    refine ⟨c4.1, [c1.2, c2.2, c3.2, c4.2], rfl, ?_⟩
    exact List.cons_eq_cons.2 ⟨k m _ (by simp [Shape.elements, *]), List.cons_eq_cons.2 ⟨k c1.1 _ (by simp [Shape.elements, *]),
      List.cons_eq_cons.2 ⟨k c2.1 _ (by simp [Shape.elements, *]), List.cons_eq_cons.2 ⟨k c3.1 _ (by simp [Shape.elements, *]), rfl⟩⟩⟩⟩

/-- C99, limits of the code: connecting a dataset layer to fewer than four buffers is undefined instead of refused, and a null helper
buffer is accepted. -/
theorem C99_dataset_connect (inputs outputs : List (Option Comb)) :
    (datasetConnect inputs outputs = .undefined ↔ outputs.length < 4) ∧
    (datasetConnect inputs outputs = .done true ↔ inputs = [] ∧ ∃ data label helper error, outputs = [some data, some label, helper, some error]) := by
  match outputs with
  | [] => simp [datasetConnect]
  | [_] => simp [datasetConnect]
  | [_, _] => simp [datasetConnect]
  | [_, _, _] => simp [datasetConnect]
  | a :: b :: c :: d :: rest =>
    cases a <;> cases b <;> cases d <;> simp [datasetConnect]

/-- C99: a node whose layer has one input and one output is connected if there is one input and one output, neither null, that the layer accepts;
otherwise the layer keeps the tensors it had. -/
theorem C99_simple_connect (accept : Comb → Comb → Bool) (members : Option Comb × Option Comb) (inputs outputs : List (Option Comb)) :
    (∃ i o, inputs = [some i] ∧ outputs = [some o] ∧ accept i o = true ∧
      simpleConnect accept members inputs outputs = ((some i, some o), true)) ∨
    ((¬ ∃ i o, inputs = [some i] ∧ outputs = [some o] ∧ accept i o = true) ∧
      simpleConnect accept members inputs outputs = (members, false)) := by
  match inputs, outputs with
  | [], _ => exact Or.inr ⟨by simp, by simp [simpleConnect]⟩
  | _ :: _ :: _, _ => exact Or.inr ⟨by simp, by simp [simpleConnect]⟩
  | [_], [] => exact Or.inr ⟨by simp, by simp [simpleConnect]⟩
  | [_], _ :: _ :: _ => exact Or.inr ⟨by simp, by simp [simpleConnect]⟩
  | [none], [_] => exact Or.inr ⟨by simp, by simp [simpleConnect]⟩
  | [some i], [none] => exact Or.inr ⟨by simp, by simp [simpleConnect]⟩
  | [some i], [some o] =>
    cases ha : accept i o with
    | true => exact Or.inl ⟨i, o, rfl, rfl, ha, by simp [simpleConnect, ha]⟩
    | false => exact Or.inr ⟨by simp [ha], by simp [simpleConnect, ha]⟩

/-- C99: an input layer is connected exactly if there are no inputs and three or four outputs, none of them null. -/
theorem C99_connect (inputs outputs : List (Option Comb)) : inputConnect inputs outputs = true ↔
    inputs = [] ∧ ∃ cs : List Comb, outputs = cs.map some ∧ (cs.length = 3 ∨ cs.length = 4) := by
  constructor
  · intro h
    unfold inputConnect at h
    split at h
    · cases h
    · next h0 =>
      split at h
      · cases h
      · next h1 =>
        split at h
        · cases h
        · next h2 =>
          split at h
          · cases h
          · next h3 =>
            refine ⟨by simpa using h0, ?_⟩
            match outputs, h1, h2, h3 with
            | [some a, some b, some c], _, _, _ => exact ⟨[a, b, c], rfl, Or.inl rfl⟩
            | [some a, some b, some c, some d], _, _, _ => exact ⟨[a, b, c, d], rfl, Or.inr rfl⟩
            | [_, _, _, none], _, h2, _ => exact absurd ⟨by simp, rfl⟩ h2
            | none :: _, _, _, h3 => exact absurd (Or.inl rfl) h3
            | some _ :: none :: _, _, _, h3 => exact absurd (Or.inr (Or.inl rfl)) h3
            | some _ :: some _ :: none :: _, _, _, h3 => exact absurd (Or.inr (Or.inr rfl)) h3
            | [], h1, _, _ => exact absurd ⟨by simp, by simp⟩ h1
            | [_], h1, _, _ => exact absurd ⟨by simp, by simp⟩ h1
            | [_, _], h1, _, _ => exact absurd ⟨by simp, by simp⟩ h1
            | _ :: _ :: _ :: _ :: _ :: _, h1, _, _ => exact absurd ⟨by simp, by simp⟩ h1
  · rintro ⟨rfl, cs, rfl, h⟩
    match cs, h with
    | [a, b, c], _ => rfl
    | [a, b, c, d], _ => rfl
    | [], h => simp at h
    | [_], h => simp at h
    | [_, _], h => simp at h
    | _ :: _ :: _ :: _ :: _ :: _, h => simp at h

/-- C99: a node is set up exactly if its layer creates outputs, as many as it described, and then accepts the connection. -/
theorem C99_node (create : List (Option Comb) → Option (Mem D × List (Option Comb)))
    (connect : List (Option Comb) → List (Option Comb) → Outcome Bool) (buffers : Nat) (inputs : List (Option Comb)) (m : Mem D)
    (outs : List (Option Comb)) : initNode create connect buffers inputs = .done (m, outs) ↔
      create inputs = some (m, outs) ∧ outs.length = buffers ∧ connect inputs outs = .done true := by
  unfold initNode
  cases create inputs with
  | none =>
    refine ⟨fun h => ?_, fun h => nomatch h.1⟩
    dsimp only at h
    split at h <;> cases h
  | some r =>
    obtain ⟨m', outs'⟩ := r
    dsimp only
    by_cases hb : outs'.length = buffers
    · rw [if_neg (by simpa using hb)]
      constructor
      · intro h
        cases hc : connect inputs outs' with
        | done ok =>
          rw [hc] at h
          cases ok with
          | true =>
            obtain ⟨rfl, rfl⟩ := Prod.mk.inj (Outcome.done.inj h)
            exact ⟨rfl, hb, hc⟩
          | false => cases h
        | fatal => rw [hc] at h; cases h
        | undefined => rw [hc] at h; cases h
      · rintro ⟨h1, -, h3⟩
        obtain ⟨rfl, rfl⟩ := Prod.mk.inj (Option.some.inj h1)
        rw [h3]
        rfl
    · rw [if_pos (by simpa using hb)]
      refine ⟨(fun h => by cases h), fun h => ?_⟩
      obtain ⟨-, rfl⟩ := Prod.mk.inj (Option.some.inj h.1)
      exact absurd h.2.1 hb

/-- C99: the node of an input layer that is given inputs is refused with an error. -/
theorem C99_inputs_refused (m : Mem D) (l : Layer) (c : Comb) (inputs : List (Option Comb)) (buffers : Nat) :
    initNode (createOutputs m l) (fun i o => .done (inputConnect i o)) buffers (some c :: inputs) = .fatal := rfl

/-- C99, a defect: a layer that needs an input and whose node has none is not refused with an error; the error message reads the first input
that is not there, which is undefined. -/
theorem C99_missing_input_undefined (create : List (Option Comb) → Option (Mem D × List (Option Comb)))
    (connect : List (Option Comb) → List (Option Comb) → Outcome Bool) (buffers : Nat) (h : create [] = none) :
    initNode create connect buffers [] = .undefined := by
  unfold initNode
  rw [h]
  rfl

/-! ### Examples -/

/-- Non-vacuity: two samples of 2 x 1 pixels with one map, one label per sample; the data tensor is written before and after the layer is
constructed and reshaped. -/
example : ∃ w m layer m' outs w', run [.resize 0 ⟨2, 2, 1, 1⟩, .resize 1 ⟨2, 1, 1, 1⟩, .resize 2 ⟨2, 2, 1, 2⟩, .resize 3 ⟨2, 1, 1, 1⟩,
        .write 0 0 (5 : Int), .write 0 1 6] World.start = some w ∧
      make4 w.mem (w.users 0) (w.users 1) (w.users 2) (w.users 3) = .done (m, layer) ∧ setUp m layer = .done (m', outs) ∧
      run [.write 0 1 7, .resize 0 ⟨2, 1, 2, 1⟩, .write 0 3 8] ⟨m', w.users⟩ = some w' ∧
      ∃ c, outs[0]? = some (some c) ∧ c.data.shape = ⟨2, 2, 1, 1⟩ ∧
        w'.mem.read c.data 0 = some (some 5) ∧ w'.mem.read c.data 1 = some (some 7) ∧ w'.mem.read c.data 2 = some none ∧
        w'.mem.read c.data 3 = some (some 8) ∧ w'.mem.read c.data 4 = none := by
  obtain ⟨w, m, layer, m', outs, w', h1, h2, h3, h4, -, h5⟩ := C99_sees_current_partial (D := Int)
    [.resize 0 ⟨2, 2, 1, 1⟩, .resize 1 ⟨2, 1, 1, 1⟩, .resize 2 ⟨2, 2, 1, 2⟩, .resize 3 ⟨2, 1, 1, 1⟩, .write 0 0 (5 : Int), .write 0 1 6]
    [.write 0 1 7, .resize 0 ⟨2, 1, 2, 1⟩, .write 0 3 8] 0 1 2 3
    (by refine ⟨?_, ?_, ?_, ?_, ?_, ?_, trivial⟩ <;> rintro n e x ⟨⟩ <;> decide)
    (by refine ⟨?_, ?_, ?_, trivial⟩ <;> rintro n e x ⟨⟩ <;> decide)
    (by decide) (by
      intro n hn s hs
      simp at hs
      obtain ⟨rfl, rfl⟩ := hs
      decide)
  obtain ⟨c, c1, c2, c3⟩ := h5 0 0 rfl
  exact ⟨w, m, layer, m', outs, w', h1, h2, h3, h4, c, c1, c2, c3 0, c3 1, c3 2, c3 3, c3 4⟩

/-- Non-vacuity of `C99_one_tensor_unset`. -/
example : ∃ w m layer m' outs w', run [.resize 0 ⟨1, 2, 1, 3⟩, .write 0 0 (5 : Int)] World.start = some w ∧
      make1 w.mem (w.users 0) = .done (m, layer) ∧ setUp m layer = .done (m', outs) ∧
      run [.write 0 1 7] ⟨m', w.users⟩ = some w' ∧ ∃ c, outs[2]? = some (some c) ∧ c.data.shape = ⟨1, 2, 1, 2⟩ ∧ w'.mem.read c.data 3 = some none := by
  obtain ⟨w, m, layer, m', outs, w', h1, h2, h3, h4, -, h5⟩ := C99_one_tensor_unset (D := Int)
    [.resize 0 ⟨1, 2, 1, 3⟩, .write 0 0 (5 : Int)] [.write 0 1 7] 0
    (by refine ⟨?_, ?_, trivial⟩ <;> rintro n e x ⟨⟩ <;> decide)
    (by refine ⟨?_, trivial⟩ <;> rintro n e x ⟨⟩ <;> decide) (by decide)
  obtain ⟨c, c1, c2, -, c3⟩ := h5 2 _ (by decide) rfl
  exact ⟨w, m, layer, m', outs, w', h1, h2, h3, h4, c, c1, c2, c3 3 (by decide)⟩

/-- Non-vacuity of `C99_resize_undefined`: the helper tensor is enlarged. -/
example : ∃ w m layer m' outs w', run [.resize 0 ⟨1, 1, 1, 1⟩, .resize 1 ⟨1, 1, 1, 2⟩, .write 1 0 (4 : Int)] World.start = some w ∧
      make4 w.mem (w.users 0) (w.users 0) (w.users 1) (w.users 0) = .done (m, layer) ∧ setUp m layer = .done (m', outs) ∧
      run ([] ++ .resize 1 ⟨1, 2, 2, 2⟩ :: [.write 1 0 3]) ⟨m', w.users⟩ = some w' ∧
      ∃ c, outs[2]? = some (some c) ∧ w'.mem.read c.data 0 = none := by
  obtain ⟨w, m, layer, m', outs, w', h1, h2, h3, h4, -, h5⟩ := C99_resize_undefined (D := Int)
    [.resize 0 ⟨1, 1, 1, 1⟩, .resize 1 ⟨1, 1, 1, 2⟩, .write 1 0 (4 : Int)] [] [.write 1 0 3] 0 0 1 0 1 ⟨1, 2, 2, 2⟩
    (by refine ⟨?_, ?_, ?_, trivial⟩ <;> rintro n e x ⟨⟩ <;> decide)
    (by refine ⟨?_, ?_, trivial⟩ <;> rintro n e x ⟨⟩ <;> decide) (by decide) (by simp) (by decide) (by decide)
  obtain ⟨c, c1, c2⟩ := h5 2 rfl
  exact ⟨w, m, layer, m', outs, w', h1, h2, h3, h4, c, c1, c2 0⟩

/-- Non-vacuity of `C99_sizes_unchecked`: labels for one pixel, data for sixteen. -/
example : ∃ m' layer, make4 (⟨[]⟩ : Mem Int) ⟨⟨1, 4, 4, 1⟩, none⟩ ⟨⟨1, 1, 1, 1⟩, none⟩ ⟨⟨1, 3, 3, 2⟩, none⟩ ⟨⟨1, 2, 2, 1⟩, none⟩ = .done (m', layer) ∧
    setUp m' layer = .done (m', [some layer.data, layer.label, some layer.helper, layer.weight]) :=
  C99_sizes_unchecked _ _ _ _ _ rfl rfl rfl

end CN24.Input
