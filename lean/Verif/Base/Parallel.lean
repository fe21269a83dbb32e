import Verif.Base.Loop

/-
Loops whose iterations run at the same time (`#pragma omp parallel for`).

The memory is a family of buffers.  An iteration is a program of single reads and writes; between
two of its accesses any other iteration may run.  This is the semantics C++ gives to a program
without data races (sequential consistency); whether two iterations can be about to access one
element, one of them writing, is therefore part of what is stated (`Config.Race`).  A thread that
runs several iterations one after the other is the special case of a schedule that never mixes them.
-/

namespace CN24

set_option linter.unusedSectionVars false

variable {B : Type} [DecidableEq B] {V : B → Type}

/-- The memory: the contents of every buffer. -/
def Mem (V : B → Type) := ∀ b, List (V b)

/-- Replace the contents of one buffer. -/
def Mem.set (m : Mem V) (b : B) (l : List (V b)) : Mem V :=
  fun c => if h : c = b then h ▸ l else m c

/-- A program that makes single accesses to the memory and returns a value. -/
inductive Prog (V : B → Type) (β : Type) : Type
  | ret (r : β) : Prog V β
  | read (b : B) (i : Nat) (k : V b → Prog V β) : Prog V β
  | write (b : B) (i : Nat) (v : V b) (k : Prog V β) : Prog V β

namespace Prog
variable {β γ : Type}

/-- One program after another. -/
def bind : Prog V β → (β → Prog V γ) → Prog V γ
  | ret r, q => q r
  | read b i k, q => read b i fun v => (k v).bind q
  | write b i v k, q => write b i v (k.bind q)

/-- Read one element. -/
def get (b : B) (i : Nat) : Prog V (V b) := read b i ret

/-- Write one element. -/
def put (b : B) (i : Nat) (v : V b) : Prog V Unit := write b i v (ret ())

/-- `for (i = 0; i < n; i++)`, with a local state. -/
def loop : Nat → (Nat → β → Prog V β) → β → Prog V β
  | 0, _, s => ret s
  | n + 1, f, s => (loop n f s).bind (f n)

/-- `for (i = 0; i < n; i++)` without local state. -/
def loop' (n : Nat) (f : Nat → Prog V Unit) : Prog V Unit := loop n (fun i _ => f i) ()

/-- The next access of a program; undefined outside the buffer, nothing for a finished program. -/
def step : Prog V β → Mem V → Option (Prog V β × Mem V)
  | ret _, _ => none
  | read b i k, m => (rd (m b) i).map fun v => (k v, m)
  | write b i v k, m => (wr (m b) i v).map fun l => (k, m.set b l)

/-- The program run alone. -/
def run : Prog V β → Mem V → Option (β × Mem V)
  | ret r, m => some (r, m)
  | read b i k, m => (rd (m b) i).bind fun v => (k v).run m
  | write b i v k, m => (wr (m b) i v).bind fun l => k.run (m.set b l)

/-- The program has ended. -/
def Ended : Prog V β → Prop
  | ret _ => True
  | _ => False

/-- The next access of the program is to element `i` of buffer `b`. -/
def Accesses : Prog V β → B → Nat → Prop
  | ret _, _, _ => False
  | read b i _, c, j => b = c ∧ i = j
  | write b i _ _, c, j => b = c ∧ i = j

/-- The element the next access writes, if it is a write. -/
def target : Prog V β → Option (B × Nat)
  | write b i _ _ => some (b, i)
  | _ => none

/-- The next access of the program writes element `i` of buffer `b`. -/
def Writes : Prog V β → B → Nat → Prop
  | write b i _ _, c, j => b = c ∧ i = j
  | _, _, _ => False

end Prog

/-- The programs of the `n` iterations, each at some point, and the memory. -/
structure Config (V : B → Type) (n : Nat) where
  mem : Mem V
  thread : Fin n → Prog V Unit

namespace Config
variable {n : Nat}

/-- Some iteration makes its next access. -/
def Step (c d : Config V n) : Prop :=
  ∃ (i : Fin n) (p : Prog V Unit), (c.thread i).step c.mem = some (p, d.mem) ∧
    d.thread = fun j => if j = i then p else c.thread j

/-- `d` is reached from `c` by `k` accesses, in some order. -/
inductive Steps : Nat → Config V n → Config V n → Prop
  | refl (c) : Steps 0 c c
  | snoc {k c d e} : Steps k c d → Step d e → Steps (k + 1) c e

/-- All iterations have ended. -/
def Finished (c : Config V n) : Prop := ∀ i, (c.thread i).Ended

/-- Two iterations are about to access the same element, and one of them writes it. -/
def Race (c : Config V n) : Prop :=
  ∃ i j, i ≠ j ∧ ∃ b k, (c.thread i).Writes b k ∧ (c.thread j).Accesses b k

/-- Some iteration is about to access an element that does not exist. -/
def Undefined (c : Config V n) : Prop :=
  ∃ i, ¬ (c.thread i).Ended ∧ (c.thread i).step c.mem = none

/-- An iteration that has not ended and is not about to leave its buffer can go on. -/
theorem step_of_not_finished {c : Config V n} (hf : ¬ c.Finished) (hd : ¬ c.Undefined) :
    ∃ d, c.Step d := by
  have : ∃ i, ¬ (c.thread i).Ended := by
    refine Classical.byContradiction fun h => hf fun i => ?_
    exact Classical.byContradiction fun hi => h ⟨i, hi⟩
  obtain ⟨i, hi⟩ := this
  cases hs : (c.thread i).step c.mem with
  | none => exact absurd ⟨i, hi, hs⟩ hd
  | some r => exact ⟨⟨r.2, fun j => if j = i then r.1 else c.thread j⟩, i, r.1, hs, rfl⟩

theorem race_of_target {c : Config V n} {i j : Fin n} {a : B × Nat} (hij : i ≠ j)
    (h1 : (c.thread i).target = some a) (h2 : (c.thread j).target = some a) : c.Race := by
  refine ⟨i, j, hij, a.1, a.2, ?_, ?_⟩
  · cases h : c.thread i <;> rw [h] at h1 <;> cases h1
    exact ⟨rfl, rfl⟩
  · cases h : c.thread j <;> rw [h] at h2 <;> cases h2
    exact ⟨rfl, rfl⟩

/-- Iteration `i` makes `k` accesses in a row. -/
def advance (i : Fin n) : Nat → Config V n → Option (Config V n)
  | 0, c => some c
  | k + 1, c => (advance i k c).bind fun d => ((d.thread i).step d.mem).map fun r =>
      ⟨r.2, fun j => if j = i then r.1 else d.thread j⟩

theorem steps_of_advance {i : Fin n} {k l : Nat} {c d e : Config V n} (hc : Steps l c d)
    (h : advance i k d = some e) : Steps (l + k) c e := by
  induction k generalizing e with
  | zero => cases h; exact hc
  | succ k ih =>
    rw [advance, Option.bind_eq_some_iff] at h
    obtain ⟨f, h1, h2⟩ := h
    rw [Option.map_eq_some_iff] at h2
    obtain ⟨r, h2, rfl⟩ := h2
    exact .snoc (ih h1) ⟨i, r.1, h2, rfl⟩

end Config

/-- Whatever the schedule, the iterations `P`, started together on the memory `m`, come to an end
after a bounded number of accesses, never race, never leave the buffers and leave `m'`. -/
structure EverySchedule {n : Nat} (P : Fin n → Prog V Unit) (m m' : Mem V) : Prop where
  ends : ∃ N, ∀ k c, Config.Steps k ⟨m, P⟩ c → k ≤ N
  noRace : ∀ k c, Config.Steps k ⟨m, P⟩ c → ¬ c.Race
  defined : ∀ k c, Config.Steps k ⟨m, P⟩ c → ¬ c.Undefined
  result : ∀ k c, Config.Steps k ⟨m, P⟩ c → c.Finished → c.mem = m'

/-! ### Memory -/

namespace Mem

theorem ext' {m m' : Mem V} (h : ∀ b k, rd (m b) k = rd (m' b) k) : m = m' :=
  funext fun b => List.ext_getElem? (h b)

theorem set_self (m : Mem V) (b : B) (l : List (V b)) : m.set b l b = l := by simp [set]

theorem set_ne (m : Mem V) {b c : B} (l : List (V b)) (h : c ≠ b) : m.set b l c = m c := by
  simp [set, h]

theorem rd_set {m : Mem V} {b : B} {i : Nat} {v : V b} {l : List (V b)} (hl : wr (m b) i v = some l)
    (c : B) (j : Nat) (h : ¬ (c = b ∧ j = i)) : rd (m.set b l c) j = rd (m c) j := by
  by_cases hc : c = b
  · subst hc
    rw [set_self]
    unfold wr at hl
    split at hl
    · obtain rfl := Option.some.inj hl
      have : i ≠ j := fun e => h ⟨rfl, e.symm⟩
      simp [rd, List.getElem?_set_ne this]
    · simp at hl
  · rw [set_ne _ _ hc]

theorem rd_set_self {m : Mem V} {b : B} {i : Nat} {v : V b} {l : List (V b)}
    (hl : wr (m b) i v = some l) : rd (m.set b l b) i = some v := by
  rw [set_self]
  unfold wr at hl
  split at hl
  · rename_i hi
    obtain rfl := Option.some.inj hl
    simp [rd, hi]
  · simp at hl

end Mem

theorem wr_isSome_iff {α : Type} {l : List α} {i : Nat} {v : α} :
    (∃ l', wr l i v = some l') ↔ ∃ w, rd l i = some w := by
  unfold wr rd
  constructor
  · rintro ⟨l', h⟩
    split at h
    · rename_i hi; exact ⟨l[i], by simp [hi]⟩
    · simp at h
  · rintro ⟨w, h⟩
    have hi : i < l.length := (List.getElem?_eq_some_iff.1 h).1
    exact ⟨_, if_pos hi⟩

/-! ### What a program may touch -/

namespace Prog
variable {β γ : Type}

/-- Started on a memory whose read-only buffers have the contents `m0`, the program writes only
elements of `W`, and reads only those and read-only buffers. -/
def Within (m0 : Mem V) (ro : B → Prop) (W : B → Nat → Prop) : Prog V β → Prop
  | ret _ => True
  | read b i k => (ro b ∧ ∀ v, rd (m0 b) i = some v → (k v).Within m0 ro W) ∨
      (W b i ∧ ∀ v, (k v).Within m0 ro W)
  | write b i _ k => ¬ ro b ∧ W b i ∧ k.Within m0 ro W

/-- Two memories that a program of `Within` cannot tell apart. -/
def Agree (ro : B → Prop) (W : B → Nat → Prop) (m m' : Mem V) : Prop :=
  (∀ b, ro b → m b = m' b) ∧ ∀ b k, W b k → rd (m b) k = rd (m' b) k

theorem bind_assoc {δ : Type} (p : Prog V β) (q : β → Prog V γ) (r : γ → Prog V δ) :
    (p.bind q).bind r = p.bind fun b => (q b).bind r := by
  induction p with
  | ret => rfl
  | read b i k ih => simp only [bind]; congr 1; funext v; exact ih v
  | write b i v k ih => simp only [bind, ih]

theorem bind_ret (p : Prog V β) : p.bind ret = p := by
  induction p with
  | ret => rfl
  | read b i k ih => simp only [bind]; congr 1; funext v; exact ih v
  | write b i v k ih => simp only [bind, ih]

theorem run_bind (p : Prog V β) (q : β → Prog V γ) (m : Mem V) :
    (p.bind q).run m = (p.run m).bind fun r => (q r.1).run r.2 := by
  induction p generalizing m with
  | ret => rfl
  | read b i k ih =>
    simp only [bind, run]
    cases rd (m b) i with
    | none => rfl
    | some v => exact ih v m
  | write b i v k ih =>
    simp only [bind, run]
    cases wr (m b) i v with
    | none => rfl
    | some l => exact ih _

variable {m0 : Mem V} {ro : B → Prop} {W : B → Nat → Prop}

theorem within_bind {p : Prog V β} {q : β → Prog V γ} (hp : p.Within m0 ro W)
    (hq : ∀ b, (q b).Within m0 ro W) : (p.bind q).Within m0 ro W := by
  induction p with
  | ret r => exact hq r
  | read b i k ih =>
    rcases hp with ⟨h1, h2⟩ | ⟨h1, h2⟩
    · exact .inl ⟨h1, fun v hv => ih v (h2 v hv)⟩
    · exact .inr ⟨h1, fun v => ih v (h2 v)⟩
  | write b i v k ih => exact ⟨hp.1, hp.2.1, ih hp.2.2⟩

/-- A program does the same on memories it cannot tell apart, and leaves the rest alone. -/
theorem run_congr {p : Prog V β} (hp : p.Within m0 ro W) {m m' : Mem V} (hm : ∀ b, ro b → m b = m0 b)
    (ha : Agree ro W m m') {r : β} {m1 : Mem V} (h : p.run m = some (r, m1)) :
    ∃ m1', p.run m' = some (r, m1') ∧ Agree ro W m1 m1' ∧
      ∀ b k, ¬ W b k → rd (m1' b) k = rd (m' b) k := by
  induction p generalizing m m' with
  | ret s =>
    simp only [run, Option.some.injEq, Prod.mk.injEq] at h
    obtain ⟨rfl, rfl⟩ := h
    exact ⟨m', rfl, ha, fun _ _ _ => rfl⟩
  | read b i k ih =>
    simp only [run, Option.bind_eq_some_iff] at h
    obtain ⟨v, hv, hr⟩ := h
    have hv' : rd (m' b) i = some v := by
      rcases hp with ⟨h1, _⟩ | ⟨h1, _⟩
      · rw [← ha.1 b h1]; exact hv
      · rw [← ha.2 b i h1]; exact hv
    have hk : (k v).Within m0 ro W := by
      rcases hp with ⟨h1, h2⟩ | ⟨_, h2⟩
      · exact h2 v (by rw [← hm b h1]; exact hv)
      · exact h2 v
    obtain ⟨m1', e, h2⟩ := ih v hk hm ha hr
    exact ⟨m1', by simp [run, hv', e], h2⟩
  | write b i v k ih =>
    simp only [run, Option.bind_eq_some_iff] at h
    obtain ⟨l, hl, hr⟩ := h
    obtain ⟨hb, hw, hk⟩ := hp
    obtain ⟨l', hl'⟩ : ∃ l', wr (m' b) i v = some l' := by
      rw [wr_isSome_iff, ← ha.2 b i hw, ← wr_isSome_iff (v := v)]; exact ⟨l, hl⟩
    have ha' : Agree ro W (m.set b l) (m'.set b l') := by
      constructor
      · intro c hc
        have hne : c ≠ b := fun e => hb (e ▸ hc)
        rw [Mem.set_ne _ _ hne, Mem.set_ne _ _ hne]
        exact ha.1 c hc
      · intro c j hcj
        by_cases e : c = b ∧ j = i
        · obtain ⟨rfl, rfl⟩ := e
          rw [Mem.rd_set_self hl, Mem.rd_set_self hl']
        · rw [Mem.rd_set hl _ _ e, Mem.rd_set hl' _ _ e]
          exact ha.2 c j hcj
    obtain ⟨m1', e, h1, h2⟩ := ih hk (fun c hc => by
      rw [Mem.set_ne _ _ (show c ≠ b from fun e => hb (e ▸ hc))]; exact hm c hc) ha' hr
    refine ⟨m1', by simp [run, hl', e], h1, fun c j hcj => ?_⟩
    rw [h2 c j hcj]
    exact Mem.rd_set hl' _ _ (fun e => hcj (e.1 ▸ e.2 ▸ hw))

/-- The part of the memory that a program does not write is left alone. -/
theorem run_frame {p : Prog V β} (hp : p.Within m0 ro W) {m m1 : Mem V} (hm : ∀ b, ro b → m b = m0 b)
    {r : β} (h : p.run m = some (r, m1)) :
    (∀ b, ro b → m1 b = m0 b) ∧ ∀ b k, ¬ W b k → rd (m1 b) k = rd (m b) k := by
  induction p generalizing m with
  | ret s =>
    simp only [run, Option.some.injEq, Prod.mk.injEq] at h
    obtain ⟨rfl, rfl⟩ := h
    exact ⟨hm, fun _ _ _ => rfl⟩
  | read b i k ih =>
    simp only [run, Option.bind_eq_some_iff] at h
    obtain ⟨v, hv, hr⟩ := h
    have hk : (k v).Within m0 ro W := by
      rcases hp with ⟨h1, h2⟩ | ⟨_, h2⟩
      · exact h2 v (by rw [← hm b h1]; exact hv)
      · exact h2 v
    exact ih v hk hm hr
  | write b i v k ih =>
    simp only [run, Option.bind_eq_some_iff] at h
    obtain ⟨l, hl, hr⟩ := h
    obtain ⟨hb, hw, hk⟩ := hp
    obtain ⟨h1, h2⟩ := ih hk (m := m.set b l) (fun c hc => by
      rw [Mem.set_ne _ _ (show c ≠ b from fun e => hb (e ▸ hc))]; exact hm c hc) hr
    refine ⟨h1, fun c j hcj => ?_⟩
    rw [h2 c j hcj]
    exact Mem.rd_set hl _ _ (fun e => hcj (e.1 ▸ e.2 ▸ hw))

/-- The number of accesses of a program run alone. -/
def length : Prog V β → Mem V → Nat
  | ret _, _ => 0
  | read b i k, m => match rd (m b) i with
    | some v => (k v).length m + 1
    | none => 0
  | write b i v k, m => match wr (m b) i v with
    | some l => k.length (m.set b l) + 1
    | none => 0

theorem length_congr {p : Prog V β} (hp : p.Within m0 ro W) {m m' : Mem V}
    (hm : ∀ b, ro b → m b = m0 b) (ha : Agree ro W m m') : p.length m = p.length m' := by
  induction p generalizing m m' with
  | ret s => rfl
  | read b i k ih =>
    have hv' : rd (m b) i = rd (m' b) i := by
      rcases hp with ⟨h1, _⟩ | ⟨h1, _⟩
      · rw [← ha.1 b h1]
      · rw [← ha.2 b i h1]
    simp only [length]
    rw [← hv']
    cases hv : rd (m b) i with
    | none => rfl
    | some v =>
      have hk : (k v).Within m0 ro W := by
        rcases hp with ⟨h1, h2⟩ | ⟨_, h2⟩
        · exact h2 v (by rw [← hm b h1]; exact hv)
        · exact h2 v
      exact congrArg (· + 1) (ih v hk hm ha)
  | write b i v k ih =>
    obtain ⟨hb, hw, hk⟩ := hp
    have hiff : (∃ l, wr (m b) i v = some l) ↔ ∃ l, wr (m' b) i v = some l := by
      rw [wr_isSome_iff, wr_isSome_iff, ha.2 b i hw]
    simp only [length]
    cases hl : wr (m b) i v with
    | none =>
      cases hl' : wr (m' b) i v with
      | none => rfl
      | some l' => obtain ⟨l, h⟩ := hiff.2 ⟨l', hl'⟩; simp [hl] at h
    | some l =>
      obtain ⟨l', hl'⟩ := hiff.1 ⟨l, hl⟩
      rw [hl']
      have ha' : Agree ro W (m.set b l) (m'.set b l') := by
        constructor
        · intro c hc
          have hne : c ≠ b := fun e => hb (e ▸ hc)
          rw [Mem.set_ne _ _ hne, Mem.set_ne _ _ hne]
          exact ha.1 c hc
        · intro c j hcj
          by_cases e : c = b ∧ j = i
          · obtain ⟨rfl, rfl⟩ := e
            rw [Mem.rd_set_self hl, Mem.rd_set_self hl']
          · rw [Mem.rd_set hl _ _ e, Mem.rd_set hl' _ _ e]
            exact ha.2 c j hcj
      exact congrArg (· + 1) (ih hk (fun c hc => by
        rw [Mem.set_ne _ _ (show c ≠ b from fun e => hb (e ▸ hc))]; exact hm c hc) ha')

/-- One access of a program. -/
theorem step_spec {p q : Prog V β} (hp : p.Within m0 ro W) {m m' : Mem V}
    (hm : ∀ b, ro b → m b = m0 b) (h : p.step m = some (q, m')) :
    q.Within m0 ro W ∧ (∀ b, ro b → m' b = m0 b) ∧ (∀ b k, ¬ W b k → rd (m' b) k = rd (m b) k) ∧
      p.run m = q.run m' ∧ p.length m = q.length m' + 1 := by
  cases p with
  | ret => simp [step] at h
  | read b i k =>
    simp only [step, Option.map_eq_some_iff, Prod.mk.injEq] at h
    obtain ⟨v, hv, rfl, rfl⟩ := h
    have hk : (k v).Within m0 ro W := by
      rcases hp with ⟨h1, h2⟩ | ⟨_, h2⟩
      · exact h2 v (by rw [← hm b h1]; exact hv)
      · exact h2 v
    exact ⟨hk, hm, fun _ _ _ => rfl, by simp [run, hv], by simp [length, hv]⟩
  | write b i v k =>
    simp only [step, Option.map_eq_some_iff, Prod.mk.injEq] at h
    obtain ⟨l, hl, rfl, rfl⟩ := h
    obtain ⟨hb, hw, hk⟩ := hp
    exact ⟨hk, fun c hc => by rw [Mem.set_ne _ _ (show c ≠ b from fun e => hb (e ▸ hc))]; exact hm c hc,
      fun c j hcj => Mem.rd_set hl _ _ (fun e => hcj (e.1 ▸ e.2 ▸ hw)), by simp [run, hl],
      by simp [length, hl]⟩

theorem step_of_run {p : Prog V β} {m : Mem V} (he : ¬ p.Ended) {x : β × Mem V}
    (h : p.run m = some x) : p.step m ≠ none := by
  cases p with
  | ret => exact absurd trivial he
  | read b i k =>
    simp only [run, Option.bind_eq_some_iff] at h
    obtain ⟨v, hv, _⟩ := h
    simp [step, hv]
  | write b i v k =>
    simp only [run, Option.bind_eq_some_iff] at h
    obtain ⟨l, hl, _⟩ := h
    simp [step, hl]

theorem writes_within {p : Prog V β} (hp : p.Within m0 ro W) {b : B} {k : Nat} (h : p.Writes b k) :
    ¬ ro b ∧ W b k := by
  cases p with
  | ret => exact h.elim
  | read => exact h.elim
  | write b' i v q => obtain ⟨rfl, rfl⟩ := h; exact ⟨hp.1, hp.2.1⟩

theorem accesses_within {p : Prog V β} (hp : p.Within m0 ro W) {b : B} {k : Nat} (h : p.Accesses b k) :
    ro b ∨ W b k := by
  cases p with
  | ret => exact h.elim
  | read b' i q =>
    obtain ⟨rfl, rfl⟩ := h
    rcases hp with ⟨h, _⟩ | ⟨h, _⟩
    · exact .inl h
    · exact .inr h
  | write b' i v q => obtain ⟨rfl, rfl⟩ := h; exact .inr hp.2.1

end Prog

/-! ### Iterations with separate footprints -/

section
variable {n : Nat} {P : Fin n → Prog V Unit} {m0 : Mem V} {ro : B → Prop} {W : Fin n → B → Nat → Prop}

/-- What holds at every point of every execution. -/
structure Reached (m0 : Mem V) (ro : B → Prop) (W : Fin n → B → Nat → Prop) (F : Fin n → Mem V)
    (c : Config V n) : Prop where
  const : ∀ b, ro b → c.mem b = m0 b
  within : ∀ i, (c.thread i).Within m0 ro (W i)
  rest : ∀ b k, (∀ i, ¬ W i b k) → rd (c.mem b) k = rd (m0 b) k
  target : ∀ i, ∃ m1, (c.thread i).run c.mem = some ((), m1) ∧
    ∀ b k, W i b k → rd (m1 b) k = rd (F i b) k

theorem agree_of_step {i j : Fin n} (hij : j ≠ i) (hd : ∀ i j, i ≠ j → ∀ b k, W i b k → ¬ W j b k)
    {m m' : Mem V} (h1 : ∀ b, ro b → m b = m0 b) (h2 : ∀ b, ro b → m' b = m0 b)
    (h3 : ∀ b k, ¬ W i b k → rd (m' b) k = rd (m b) k) : Prog.Agree ro (W j) m m' :=
  ⟨fun b hb => (h1 b hb).trans (h2 b hb).symm,
    fun b k hk => (h3 b k (hd j i hij b k hk)).symm⟩

theorem reached_step {F : Fin n → Mem V} (hd : ∀ i j, i ≠ j → ∀ b k, W i b k → ¬ W j b k)
    {c d : Config V n} (hc : Reached m0 ro W F c) (h : Config.Step c d) : Reached m0 ro W F d := by
  obtain ⟨i, p, hs, ht⟩ := h
  obtain ⟨h1, h2, h3, h4, _⟩ := Prog.step_spec (hc.within i) hc.const hs
  refine ⟨h2, fun j => ?_, fun b k hk => ?_, fun j => ?_⟩
  · rw [ht]
    dsimp only
    split
    · rename_i e; exact e ▸ h1
    · exact hc.within j
  · rw [h3 b k (hk i)]; exact hc.rest b k hk
  · rw [ht]
    dsimp only
    split
    · rename_i e
      subst e
      rw [← h4]
      exact hc.target j
    · rename_i e
      obtain ⟨m1, e1, e2⟩ := hc.target j
      obtain ⟨m1', e1', e2', _⟩ := Prog.run_congr (hc.within j) hc.const
        (agree_of_step e hd hc.const h2 h3) e1
      exact ⟨m1', e1', fun b k hk => by rw [← e2'.2 b k hk]; exact e2 b k hk⟩

/-- The number of accesses still to be made. -/
def Config.todo (c : Config V n) : Nat := ((List.finRange n).map fun i => (c.thread i).length c.mem).sum

theorem sum_map_one {α : Type} [DecidableEq α] (l : List α) (f g : α → Nat) (a : α) (ha : a ∈ l)
    (hn : l.Nodup) (h1 : f a = g a + 1) (h2 : ∀ b, b ≠ a → f b = g b) :
    (l.map f).sum = (l.map g).sum + 1 := by
  induction l with
  | nil => simp at ha
  | cons x l ih =>
    simp only [List.map_cons, List.sum_cons]
    rw [List.nodup_cons] at hn
    by_cases e : x = a
    · subst e
      have : l.map f = l.map g := List.map_congr_left fun b hb => h2 b (fun e => hn.1 (e ▸ hb))
      rw [this, h1]; omega
    · rw [ih ((List.mem_cons.1 ha).resolve_left (fun h => e h.symm)) hn.2, h2 x e]; omega

theorem todo_step {F : Fin n → Mem V} (hd : ∀ i j, i ≠ j → ∀ b k, W i b k → ¬ W j b k)
    {c d : Config V n} (hc : Reached m0 ro W F c) (h : Config.Step c d) : c.todo = d.todo + 1 := by
  obtain ⟨i, p, hs, ht⟩ := h
  obtain ⟨h1, h2, h3, h4, h5⟩ := Prog.step_spec (hc.within i) hc.const hs
  refine sum_map_one _ _ _ i (List.mem_finRange i) (List.nodup_finRange n) ?_ fun j hj => ?_
  · rw [ht]; simpa using h5
  · rw [ht]
    simp only [hj, if_false]
    exact Prog.length_congr (hc.within j) hc.const (agree_of_step hj hd hc.const h2 h3)

theorem reached_steps {F : Fin n → Mem V} (hd : ∀ i j, i ≠ j → ∀ b k, W i b k → ¬ W j b k)
    {c d : Config V n} {k : Nat} (h : Config.Steps k c d) (hc : Reached m0 ro W F c) :
    Reached m0 ro W F d ∧ c.todo = d.todo + k := by
  induction h with
  | refl => exact ⟨hc, rfl⟩
  | snoc _ hs ih =>
    obtain ⟨h1, h2⟩ := ih hc
    exact ⟨reached_step hd h1 hs, by rw [h2, todo_step hd h1 hs]; omega⟩

/-- The iterations in order. -/
def inOrder (n : Nat) (P : Nat → Prog V Unit) (m : Mem V) : Option (Mem V) :=
  forLoop n (fun i m => ((P i).run m).map (·.2)) m

/-- If every iteration, run alone, is defined and their footprints are separate, then every schedule ends
with the memory that holds what each of them wrote. -/
theorem everySchedule_of_each {n : Nat} {P : Nat → Prog V Unit} {m0 m' : Mem V} {ro : B → Prop}
    {W : Nat → B → Nat → Prop} (hw : ∀ i, i < n → (P i).Within m0 ro (W i))
    (hd : ∀ i j, i < n → j < n → i ≠ j → ∀ b k, W i b k → ¬ W j b k)
    (F : Nat → Mem V)
    (k2 : ∀ i, i < n → (P i).run m0 = some ((), F i) ∧ ∀ b k, W i b k → rd (m' b) k = rd (F i b) k)
    (k3 : ∀ b k, (∀ i, i < n → ¬ W i b k) → rd (m' b) k = rd (m0 b) k) :
    EverySchedule (fun i : Fin n => P i) m0 m' := by
  have hd' : ∀ i j : Fin n, i ≠ j → ∀ b k, W i b k → ¬ W j b k := fun i j hij =>
    hd i j i.2 j.2 (fun e => hij (Fin.ext e))
  have start : Reached m0 ro (fun i : Fin n => W i) (fun i => F i) ⟨m0, fun i : Fin n => P i⟩ :=
    ⟨fun _ _ => rfl, fun i => hw i i.2, fun _ _ _ => rfl,
      fun i => ⟨F i, (k2 i i.2).1, fun _ _ _ => rfl⟩⟩
  refine ⟨⟨Config.todo ⟨m0, fun i : Fin n => P i⟩, fun k c hk => ?_⟩, fun k c hk => ?_, fun k c hk => ?_, fun k c hk hf => ?_⟩
  · have := (reached_steps hd' hk start).2
    omega
  · obtain ⟨hr, _⟩ := reached_steps hd' hk start
    rintro ⟨i, j, hij, b, k, h1, h2⟩
    obtain ⟨h3, h4⟩ := Prog.writes_within (hr.within i) h1
    rcases Prog.accesses_within (hr.within j) h2 with h5 | h5
    · exact h3 h5
    · exact hd' i j hij b k h4 h5
  · obtain ⟨hr, _⟩ := reached_steps hd' hk start
    rintro ⟨i, h1, h2⟩
    obtain ⟨m1, e1, _⟩ := hr.target i
    exact Prog.step_of_run h1 e1 h2
  · obtain ⟨hr, _⟩ := reached_steps hd' hk start
    refine Mem.ext' fun b k => ?_
    by_cases hW : ∃ i : Fin n, W i b k
    · obtain ⟨i, hi⟩ := hW
      obtain ⟨m1, e1, e2⟩ := hr.target i
      have hend := hf i
      have : c.mem = m1 := by
        revert hend e1
        cases c.thread i with
        | ret r => intro e1 _; exact (Prod.mk.inj (Option.some.inj e1)).2
        | read => intro _ h; exact h.elim
        | write => intro _ h; exact h.elim
      rw [this, e2 b k hi, (k2 i i.2).2 b k hi]
    · rw [hr.rest b k fun i hi => hW ⟨i, hi⟩, k3 b k fun i hi hWi => hW ⟨⟨i, hi⟩, hWi⟩]

/-- If the iterations, run in order, are defined and their footprints are separate, then every
schedule ends with the memory of the run in order. -/
theorem everySchedule_of_inOrder {n : Nat} {P : Nat → Prog V Unit} {m0 m' : Mem V} {ro : B → Prop}
    {W : Nat → B → Nat → Prop} (hw : ∀ i, i < n → (P i).Within m0 ro (W i))
    (hd : ∀ i j, i < n → j < n → i ≠ j → ∀ b k, W i b k → ¬ W j b k)
    (h : inOrder n P m0 = some m') :
    EverySchedule (fun i : Fin n => P i) m0 m' := by
  -- the run in order: after `j` iterations
  have key : ∀ j, j ≤ n → ∃ (m : Mem V) (F : Nat → Mem V), inOrder j P m0 = some m ∧
      (∀ b, ro b → m b = m0 b) ∧
      (∀ i, i < j → (P i).run m0 = some ((), F i) ∧ ∀ b k, W i b k → rd (m b) k = rd (F i b) k) ∧
      (∀ b k, (∀ i, i < j → ¬ W i b k) → rd (m b) k = rd (m0 b) k) := by
    intro j
    induction j with
    | zero => exact fun _ => ⟨m0, fun _ => m0, rfl, fun _ _ => rfl, fun i hi => by omega, fun _ _ _ => rfl⟩
    | succ j ih =>
      intro hj
      obtain ⟨m, F, e, h1, h2, h3⟩ := ih (by omega)
      have hsub : ∃ m1, inOrder (j + 1) P m0 = some m1 := by
        have : ∀ k, k ≤ n → ∃ m1, inOrder k P m0 = some m1 := by
          intro k hk
          obtain ⟨d, rfl⟩ := Nat.exists_eq_add_of_le hk
          clear hw hd ih e h1 h2 h3 hj hk
          induction d generalizing m' with
          | zero => exact ⟨m', h⟩
          | succ d ih =>
            rw [← Nat.add_assoc] at h
            unfold inOrder at h
            rw [forLoop_succ, Option.bind_eq_some_iff] at h
            obtain ⟨m2, h2, _⟩ := h
            exact ih h2
        exact this _ hj
      obtain ⟨m1, e1⟩ := hsub
      have e1' := e1
      unfold inOrder at e1 e
      rw [forLoop_succ, e, Option.bind_some, Option.map_eq_some_iff] at e1
      obtain ⟨⟨⟨⟩, m2⟩, hrun, rfl⟩ := e1
      have hag : Prog.Agree ro (W j) m m0 := ⟨h1, fun b k hk =>
        h3 b k fun i hi hW => hd i j (by omega) (by omega) (by omega) b k hW hk⟩
      obtain ⟨f, ef, hf, _⟩ := Prog.run_congr (hw j (by omega)) h1 hag hrun
      obtain ⟨h4, h5⟩ := Prog.run_frame (hw j (by omega)) h1 hrun
      refine ⟨m2, fun i => if i = j then f else F i, e1', h4, fun i hi => ?_, fun b k hk => ?_⟩
      · by_cases hij : i = j
        · subst hij
          simp only [if_true]
          exact ⟨ef, fun b k hk => hf.2 b k hk⟩
        · simp only [hij, if_false]
          obtain ⟨g1, g2⟩ := h2 i (by omega)
          exact ⟨g1, fun b k hk => by
            rw [h5 b k (hd i j (by omega) (by omega) hij b k hk)]; exact g2 b k hk⟩
      · rw [h5 b k (hk j (by omega))]
        exact h3 b k fun i hi => hk i (by omega)
  obtain ⟨m, F, e, k1, k2, k3⟩ := key n (Nat.le_refl n)
  rw [h] at e
  obtain rfl := Option.some.inj e
  exact everySchedule_of_each hw hd F k2 k3

end

end CN24
