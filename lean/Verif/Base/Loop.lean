/-
Loops and buffers: the small imperative vocabulary in which the model is written.

A buffer is a `List`.  Reading or writing outside it is undefined behaviour in C++ and is
the outcome `none` here.  A C++ `for` loop is `forLoop`, whose body may be undefined.
-/

namespace CN24

/-- `for (i = 0; i < n; i++) state = body(i, state);` with undefined behaviour as `none`. -/
def forLoop {σ : Type _} : Nat → (Nat → σ → Option σ) → σ → Option σ
  | 0, _, s => some s
  | n + 1, f, s => (forLoop n f s).bind (f n)

/-- `for (i = a; i < b; i++)`. -/
def forRange {σ : Type _} (a b : Nat) (f : Nat → σ → Option σ) (s : σ) : Option σ :=
  forLoop (b - a) (fun i => f (a + i)) s

/-- Read `b[i]`; out of range is undefined. -/
def rd {α : Type _} (b : List α) (i : Nat) : Option α := b[i]?

/-- Write `b[i] = v`; out of range is undefined. -/
def wr {α : Type _} (b : List α) (i : Nat) (v : α) : Option (List α) :=
  if i < b.length then some (b.set i v) else none

/-- A straight-line sequence of writes. -/
def wrAll {α : Type _} : List (Nat × α) → List α → Option (List α)
  | [], b => some b
  | (i, v) :: es, b => (wr b i v).bind (wrAll es)

/-! ### Loop rules -/

@[simp] theorem forLoop_zero {σ : Type _} (f : Nat → σ → Option σ) (s : σ) :
    forLoop 0 f s = some s := rfl

theorem forLoop_succ {σ : Type _} (n : Nat) (f : Nat → σ → Option σ) (s : σ) :
    forLoop (n + 1) f s = (forLoop n f s).bind (f n) := rfl

/-- Invariant rule. -/
theorem forLoop_inv {σ : Type _} {n : Nat} {f : Nat → σ → Option σ} {s : σ}
    (P : Nat → σ → Prop) (h0 : P 0 s)
    (hs : ∀ i s, i < n → P i s → ∃ s', f i s = some s' ∧ P (i + 1) s') :
    ∃ s', forLoop n f s = some s' ∧ P n s' := by
  induction n with
  | zero => exact ⟨s, rfl, h0⟩
  | succ n ih =>
    obtain ⟨s1, h1, p1⟩ := ih (fun i s hi hp => hs i s (by omega) hp)
    obtain ⟨s2, h2, p2⟩ := hs n s1 (by omega) p1
    exact ⟨s2, by simp [forLoop_succ, h1, h2], p2⟩

/-- A loop each of whose iterations appends to a ghost list. -/
theorem forLoop_append {σ ω : Type _} {n : Nat} {f : Nat → σ → Option σ} {s : σ} {l : List ω}
    (Inv : σ → List ω → Prop) (g : Nat → List ω) (h0 : Inv s l)
    (hs : ∀ i s l, i < n → Inv s l → ∃ s', f i s = some s' ∧ Inv s' (l ++ g i)) :
    ∃ s', forLoop n f s = some s' ∧ Inv s' (l ++ (List.range n).flatMap g) := by
  refine forLoop_inv (fun k s => Inv s (l ++ (List.range k).flatMap g)) (by simpa using h0) ?_
  intro i s hi hinv
  obtain ⟨s', e, h⟩ := hs i s _ hi hinv
  refine ⟨s', e, ?_⟩
  rw [List.range_succ, List.flatMap_append, ← List.append_assoc]
  simpa using h

/-- Partial-correctness invariant rule. -/
theorem forLoop_inv_of_eq {σ : Type _} {n : Nat} {f : Nat → σ → Option σ} {s t : σ}
    (P : Nat → σ → Prop) (h : forLoop n f s = some t) (h0 : P 0 s)
    (hs : ∀ i s s', i < n → P i s → f i s = some s' → P (i + 1) s') : P n t := by
  induction n generalizing t with
  | zero => simp at h; exact h ▸ h0
  | succ n ih =>
    simp only [forLoop_succ, Option.bind_eq_some_iff] at h
    obtain ⟨u, hu, hf⟩ := h
    exact hs n u t (by omega) (ih hu (fun i s s' hi => hs i s s' (by omega))) hf

theorem forLoop_congr {σ : Type _} {n : Nat} {f g : Nat → σ → Option σ} {s : σ}
    (P : σ → Prop) (h0 : P s)
    (hp : ∀ i s s', i < n → P s → f i s = some s' → P s')
    (h : ∀ i s, i < n → P s → f i s = g i s) : forLoop n f s = forLoop n g s := by
  induction n with
  | zero => rfl
  | succ n ih =>
    have e := ih (fun i s s' hi => hp i s s' (by omega)) (fun i s hi => h i s (by omega))
    simp only [forLoop_succ, ← e]
    cases hq : forLoop n f s with
    | none => rfl
    | some t =>
      have pt : P t := forLoop_inv_of_eq (fun _ => P) hq h0
        (fun i s s' hi hP hf => hp i s s' (by omega) hP hf)
      simpa using h n t (by omega) pt

theorem forLoop_congr' {σ : Type _} {n : Nat} {f g : Nat → σ → Option σ} {s : σ}
    (h : ∀ i s, i < n → f i s = g i s) : forLoop n f s = forLoop n g s :=
  forLoop_congr (fun _ => True) trivial (fun _ _ _ _ _ _ => trivial) (fun i s hi _ => h i s hi)

theorem forLoop_id {σ : Type _} {n : Nat} (s : σ) : forLoop n (fun _ s => some s) s = some s := by
  induction n with
  | zero => rfl
  | succ n ih => simp [forLoop_succ, ih]

/-! ### Buffers -/

theorem rd_eq_some {α : Type _} {b : List α} {i : Nat} (h : i < b.length) :
    rd b i = some b[i] := by simp [rd, h]

theorem rd_getD {α : Type _} {b : List α} {i : Nat} (d : α) (h : i < b.length) :
    rd b i = some (b.getD i d) := by simp [rd, h]

theorem rd_isSome {α : Type _} {b : List α} {i : Nat} : (rd b i).isSome ↔ i < b.length := by
  simp [rd]

theorem wr_of_lt {α : Type _} {b : List α} {i : Nat} {v : α} (h : i < b.length) :
    wr b i v = some (b.set i v) := by simp [wr, h]

theorem wr_length {α : Type _} {b b' : List α} {i : Nat} {v : α} (h : wr b i v = some b') :
    b'.length = b.length := by
  unfold wr at h; split at h <;> simp at h; simp [← h]

@[simp] theorem wrAll_nil {α : Type _} (b : List α) : wrAll [] b = some b := rfl

theorem wrAll_cons {α : Type _} (i : Nat) (v : α) (es : List (Nat × α)) (b : List α) :
    wrAll ((i, v) :: es) b = (wr b i v).bind (wrAll es) := rfl

theorem wrAll_singleton {α : Type _} (i : Nat) (v : α) (b : List α) :
    wrAll [(i, v)] b = wr b i v := by
  simp [wrAll]

theorem wrAll_append {α : Type _} (es fs : List (Nat × α)) (b : List α) :
    wrAll (es ++ fs) b = (wrAll es b).bind (wrAll fs) := by
  induction es generalizing b with
  | nil => rfl
  | cons e es ih =>
    obtain ⟨i, v⟩ := e
    simp only [List.cons_append, wrAll_cons]
    cases wr b i v with
    | none => rfl
    | some c => simpa using ih c

/-- A loop of write sequences is one write sequence. -/
theorem forLoop_wrAll {α : Type _} (n : Nat) (L : Nat → List (Nat × α)) (b : List α) :
    forLoop n (fun i => wrAll (L i)) b = wrAll ((List.range n).flatMap L) b := by
  induction n with
  | zero => rfl
  | succ n ih =>
    rw [forLoop_succ, ih, List.range_succ, List.flatMap_append, wrAll_append]
    simp

theorem wrAll_length {α : Type _} {es : List (Nat × α)} {b b' : List α}
    (h : wrAll es b = some b') : b'.length = b.length := by
  induction es generalizing b with
  | nil => simp at h; rw [h]
  | cons e es ih =>
    obtain ⟨i, v⟩ := e
    simp only [wrAll_cons, Option.bind_eq_some_iff] at h
    obtain ⟨c, hc, h⟩ := h
    rw [ih h, wr_length hc]

/-- What a sequence of in-range writes does: positions not written keep their value, and a
position all of whose writes agree holds that value. -/
theorem wrAll_spec {α : Type _} (es : List (Nat × α)) (b : List α)
    (hb : ∀ e ∈ es, e.1 < b.length) :
    ∃ b', wrAll es b = some b' ∧ b'.length = b.length ∧
      (∀ j, (∀ v, (j, v) ∉ es) → b'[j]? = b[j]?) ∧
      (∀ j v, (j, v) ∈ es → (∀ v', (j, v') ∈ es → v' = v) → b'[j]? = some v) := by
  induction es generalizing b with
  | nil => exact ⟨b, rfl, rfl, by simp, by simp⟩
  | cons e es ih =>
    obtain ⟨i, v⟩ := e
    have hi : i < b.length := hb (i, v) (by simp)
    obtain ⟨b', h1, h2, h3, h4⟩ := ih (b.set i v) (by
      intro e he; simpa using hb e (by simp [he]))
    refine ⟨b', ?_, by simpa using h2, ?_, ?_⟩
    · simp [wrAll_cons, wr_of_lt hi, h1]
    · intro j hj
      rw [h3 j (fun w hw => hj w (by simp [hw]))]
      have : i ≠ j := fun e => hj v (by simp [e])
      simp [this]
    · intro j w hw hall
      by_cases hin : ∃ u, (j, u) ∈ es
      · obtain ⟨u, hu⟩ := hin
        have huw : u = w := hall u (by simp [hu])
        exact h4 j w (huw ▸ hu) (fun v' hv' => hall v' (by simp [hv']))
      · have hn : ∀ u, (j, u) ∉ es := fun u hu => hin ⟨u, hu⟩
        rw [h3 j hn]
        simp only [List.mem_cons, Prod.mk.injEq] at hw
        rcases hw with ⟨rfl, rfl⟩ | hw
        · simp [hi]
        · exact absurd hw (hn w)

/-- Writing outside the buffer is undefined. -/
theorem wrAll_none_of_oob {α : Type _} (es : List (Nat × α)) (b : List α)
    (h : ∃ e ∈ es, b.length ≤ e.1) : wrAll es b = none := by
  induction es generalizing b with
  | nil => simp at h
  | cons e es ih =>
    obtain ⟨i, v⟩ := e
    rw [wrAll_cons]
    by_cases hi : i < b.length
    · rw [wr_of_lt hi]
      obtain ⟨e, he, hl⟩ := h
      have : e ∈ es := by
        rcases List.mem_cons.1 he with rfl | h
        · simp at hl; omega
        · exact h
      simpa using ih (b.set i v) ⟨e, this, by simpa using hl⟩
    · simp [wr, hi]

end CN24
