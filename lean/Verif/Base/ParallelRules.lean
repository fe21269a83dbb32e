import Verif.Base.Parallel

/-
Rules that connect the access programs of Base/Parallel.lean with the loops of the model: a program
follows a computation of the model step by step and stays in its part of the memory.
-/

namespace CN24

set_option linter.unusedSectionVars false

variable {B : Type} [DecidableEq B] {V : B → Type} {S β γ : Type}

/-- How the state of a computation of the model is laid out in memory, which states it may be in,
and which buffers nobody writes. -/
structure Frame (V : B → Type) (S : Type) where
  mem : S → Mem V
  inv : S → Prop
  m0 : Mem V
  ro : B → Prop
  const : ∀ s, inv s → ∀ b, ro b → mem s b = m0 b

/-- The program computes `e` from the read-only buffers. -/
structure Evals (F : Frame V S) (p : Prog V β) (e : Option β) : Prop where
  within : ∀ (W : B → Nat → Prop) (δ : Type) (q : β → Prog V δ),
    (∀ b, e = some b → (q b).Within F.m0 F.ro W) → (p.bind q).Within F.m0 F.ro W
  eq : ∀ m : Mem V, (∀ b, F.ro b → m b = F.m0 b) → p.run m = e.map fun b => (b, m)

/-- The program does what `f` does, and writes only elements of `W`. -/
structure Runs (F : Frame V S) (W : B → Nat → Prop) (p : Prog V Unit) (f : S → Option S) : Prop where
  within : p.Within F.m0 F.ro W
  eq : ∀ s, F.inv s → p.run (F.mem s) = (f s).map fun s' => ((), F.mem s')
  inv : ∀ s s', F.inv s → f s = some s' → F.inv s'

variable {F : Frame V S} {W : B → Nat → Prop}

namespace Evals

theorem congr {p : Prog V β} {e e' : Option β} (h : Evals F p e) (he : e = e') : Evals F p e' := he ▸ h

theorem ret (b : β) : Evals F (Prog.ret b) (some b) :=
  ⟨fun _ _ _ hq => hq b rfl, fun _ _ => rfl⟩

theorem bind {p : Prog V β} {q : β → Prog V γ} {e : Option β} {g : β → Option γ} (hp : Evals F p e)
    (hq : ∀ b, e = some b → Evals F (q b) (g b)) : Evals F (p.bind q) (e.bind g) := by
  refine ⟨fun W δ r hr => ?_, fun m hm => ?_⟩
  · rw [Prog.bind_assoc]
    refine hp.within W δ _ fun b hb => (hq b hb).within W δ r fun c hc => hr c ?_
    simp [hb, hc]
  · rw [Prog.run_bind, hp.eq m hm]
    cases e with
    | none => rfl
    | some b => exact (hq b rfl).eq m hm

theorem get {b : B} {i : Nat} (hb : F.ro b) : Evals F (Prog.get b i) (rd (F.m0 b) i) := by
  refine ⟨fun W δ q hq => .inl ⟨hb, fun v hv => hq v hv⟩, fun m hm => ?_⟩
  rw [Prog.get, Prog.run, hm b hb]
  cases rd (F.m0 b) i <;> rfl

theorem map {p : Prog V β} {e : Option β} (hp : Evals F p e) (g : β → γ) :
    Evals F (p.bind fun b => .ret (g b)) (e.map g) := by
  have := hp.bind (q := fun b => .ret (g b)) (g := fun b => some (g b)) fun b _ => ret (g b)
  refine this.congr ?_
  cases e <;> rfl

theorem loop {n : Nat} {p : Nat → β → Prog V β} {f : Nat → β → Option β} {s : β}
    (h : ∀ i s, i < n → Evals F (p i s) (f i s)) : Evals F (Prog.loop n p s) (forLoop n f s) := by
  induction n with
  | zero => exact ret s
  | succ n ih => exact (ih fun i s hi => h i s (by omega)).bind fun b _ => h n b (by omega)

theorem ite {c : Prop} [Decidable c] {p q : Prog V β} {e g : Option β} (h1 : c → Evals F p e)
    (h2 : ¬ c → Evals F q g) : Evals F (if c then p else q) (if c then e else g) := by
  by_cases h : c
  · simp only [h, if_true]; exact h1 h
  · simp only [h, if_false]; exact h2 h

end Evals

namespace Runs

theorem congr {p : Prog V Unit} {f g : S → Option S} (h : Runs F W p f)
    (e : ∀ s, F.inv s → f s = g s) : Runs F W p g :=
  ⟨h.within, fun s hs => by rw [← e s hs]; exact h.eq s hs,
    fun s s' hs hg => h.inv s s' hs (by rw [e s hs]; exact hg)⟩

theorem ret : Runs F W (Prog.ret ()) some :=
  ⟨trivial, fun _ _ => rfl, fun _ _ hs h => Option.some.inj h ▸ hs⟩

theorem seq {p q : Prog V Unit} {f g : S → Option S} (hp : Runs F W p f) (hq : Runs F W q g) :
    Runs F W (p.bind fun _ => q) (fun s => (f s).bind g) := by
  refine ⟨Prog.within_bind hp.within fun _ => hq.within, fun s hs => ?_, fun s s' hs h => ?_⟩
  · rw [Prog.run_bind, hp.eq s hs]
    cases hf : f s with
    | none => rfl
    | some s1 => exact hq.eq s1 (hp.inv s s1 hs hf)
  · rw [Option.bind_eq_some_iff] at h
    obtain ⟨s1, h1, h2⟩ := h
    exact hq.inv s1 s' (hp.inv s s1 hs h1) h2

theorem eval {p : Prog V β} {q : β → Prog V Unit} {e : Option β} {f : β → S → Option S}
    (hp : Evals F p e) (hq : ∀ b, e = some b → Runs F W (q b) (f b)) :
    Runs F W (p.bind q) (fun s => e.bind fun b => f b s) := by
  refine ⟨hp.within W _ q fun b hb => (hq b hb).within, fun s hs => ?_, fun s s' hs h => ?_⟩
  · rw [Prog.run_bind, hp.eq _ (F.const s hs)]
    cases e with
    | none => rfl
    | some b => exact (hq b rfl).eq s hs
  · rw [Option.bind_eq_some_iff] at h
    obtain ⟨b, h1, h2⟩ := h
    exact (hq b h1).inv s s' hs h2

theorem loop {n : Nat} {p : Nat → Prog V Unit} {f : Nat → S → Option S}
    (h : ∀ i, i < n → Runs F W (p i) (f i)) : Runs F W (Prog.loop' n p) (forLoop n f) := by
  induction n with
  | zero => exact ret
  | succ n ih =>
    have := (ih fun i hi => h i (by omega)).seq (h n (by omega))
    exact this

theorem loopRange {a b : Nat} {p : Nat → Prog V Unit} {f : Nat → S → Option S}
    (h : ∀ i, a ≤ i → i < b → Runs F W (p i) (f i)) :
    Runs F W (Prog.loop' (b - a) fun i => p (a + i)) (forRange a b f) :=
  loop (f := fun i => f (a + i)) fun i hi => h (a + i) (by omega) (by omega)

theorem ite {c : Prop} [Decidable c] {p q : Prog V Unit} {f g : S → Option S} (h1 : c → Runs F W p f)
    (h2 : ¬ c → Runs F W q g) : Runs F W (if c then p else q) (fun s => if c then f s else g s) := by
  by_cases h : c
  · simp only [h, if_true]; exact h1 h
  · simp only [h, if_false]; exact h2 h

/-- Read an element of the own part. -/
theorem own {b : B} {i : Nat} {k : V b → Prog V Unit} {f : V b → S → Option S} (hW : W b i)
    (hk : ∀ v, Runs F W (k v) (f v)) :
    Runs F W (Prog.read b i k) (fun s => (rd (F.mem s b) i).bind fun v => f v s) := by
  refine ⟨.inr ⟨hW, fun v => (hk v).within⟩, fun s hs => ?_, fun s s' hs h => ?_⟩
  · rw [Prog.run]
    cases rd (F.mem s b) i with
    | none => rfl
    | some v => exact (hk v).eq s hs
  · rw [Option.bind_eq_some_iff] at h
    obtain ⟨v, _, h2⟩ := h
    exact (hk v).inv s s' hs h2

/-- Write an element of the own part. -/
theorem put {b : B} {i : Nat} {v : V b} {f : S → Option S} (hb : ¬ F.ro b) (hW : W b i)
    (h : ∀ s, F.inv s → (wr (F.mem s b) i v).map ((F.mem s).set b) = (f s).map F.mem)
    (hi : ∀ s s', F.inv s → f s = some s' → F.inv s') : Runs F W (Prog.put b i v) f := by
  refine ⟨⟨hb, hW, trivial⟩, fun s hs => ?_, hi⟩
  rw [Prog.put, Prog.run]
  have := h s hs
  cases hw : wr (F.mem s b) i v with
  | none =>
    rw [hw] at this
    cases hf : f s with
    | none => rfl
    | some s' => rw [hf] at this; simp at this
  | some l =>
    rw [hw] at this
    cases hf : f s with
    | none => rw [hf] at this; simp at this
    | some s' =>
      rw [hf] at this
      simp only [Option.map_some, Option.some.injEq] at this
      simp [Prog.run, this]

end Runs

/-- A loop of the model whose iterations are followed by programs with separate parts gives the
same memory under every schedule. -/
theorem everySchedule_of_runs {n : Nat} {P : Nat → Prog V Unit} {f : Nat → S → Option S}
    {W : Nat → B → Nat → Prop} (F : Frame V S) (h : ∀ i, i < n → Runs F (W i) (P i) (f i))
    (hd : ∀ i j, i < n → j < n → i ≠ j → ∀ b k, W i b k → ¬ W j b k) {s s' : S} (hs : F.inv s)
    (hm : F.mem s = F.m0) (he : forLoop n f s = some s') :
    EverySchedule (fun i : Fin n => P i) F.m0 (F.mem s') := by
  refine everySchedule_of_inOrder (fun i hi => (h i hi).within) hd ?_
  suffices ∀ j, j ≤ n → ∀ t, forLoop j f s = some t →
      inOrder j P F.m0 = some (F.mem t) ∧ F.inv t from (this n (Nat.le_refl n) s' he).1
  intro j
  induction j with
  | zero =>
    intro _ t ht
    obtain rfl := Option.some.inj ht
    exact ⟨by rw [hm]; rfl, hs⟩
  | succ j ih =>
    intro hj t ht
    rw [forLoop_succ, Option.bind_eq_some_iff] at ht
    obtain ⟨u, hu, hf⟩ := ht
    obtain ⟨e1, e2⟩ := ih (by omega) u hu
    refine ⟨?_, (h j (by omega)).inv u t e2 hf⟩
    unfold inOrder at e1 ⊢
    rw [forLoop_succ, e1, Option.bind_some, (h j (by omega)).eq u e2, hf]
    rfl

end CN24
