import Verif.Model.MatrixReport
import Verif.Spec.MatrixReport
import Verif.Proof.Config
import Verif.Proof.StatLayers

/-
Helper lemmas for Props/MatrixReport.lean (C96).
-/

namespace CN24.MatrixReport
open CN24 CN24.Config CN24.ConfusionMatrix

/-! ### Lines -/

theorem split_append {a : Str} (b : Str) (h : '\n' ∉ a) : ReadReport.split (a ++ '\n' :: b) = a :: ReadReport.split b := by
  induction a with
  | nil => simp [ReadReport.split]
  | cons c a ih =>
    rw [List.cons_append, ReadReport.split, if_neg (by intro e; subst e; simp at h), ih (by intro e; exact h (by simp [e]))]

theorem split_single {a : Str} (h : '\n' ∉ a) : ReadReport.split a = [a] := by
  induction a with
  | nil => rfl
  | cons c a ih =>
    rw [ReadReport.split, if_neg (by intro e; subst e; simp at h), ih (by intro e; exact h (by simp [e]))]

/-- A line without its line feed. -/
def lineOf (training : Bool) (text : Str) : Str :=
  (if training then "\x1b[1;34mRESULT --- " else "\x1b[1;32mRESULT --- ").toList ++ text ++ "\x1b[0m".toList

theorem lineOf_clean (training : Bool) {text : Str} (h : '\n' ∉ text) : '\n' ∉ lineOf training text := by
  unfold lineOf
  cases training <;> simp [h]

theorem body_lineOf (training : Bool) (text : Str) : ReadReport.body (lineOf training text) = text := by
  have e : ∃ p q : Str, lineOf training text = p ++ text ++ q ∧ p.length = 18 ∧ q.length = 4 := by
    cases training
    · exact ⟨_, _, rfl, rfl, rfl⟩
    · exact ⟨_, _, rfl, rfl, rfl⟩
  obtain ⟨p, q, e, hp, hq⟩ := e
  unfold ReadReport.body
  rw [e, List.append_assoc, ← hp, List.drop_left]
  have : (p ++ (text ++ q)).length - 22 = text.length := by simp; omega
  rw [this, List.take_left]

theorem split_lines (training : Bool) : ∀ (ls : List Str), (∀ l ∈ ls, '\n' ∉ l) →
    (ReadReport.split (ls.flatMap (result training))).tail = ls.map (lineOf training) ∧
    ∀ a : Str, '\n' ∉ a → ReadReport.split (a ++ ls.flatMap (result training)) = a :: ls.map (lineOf training) := by
  intro ls
  induction ls with
  | nil =>
    intro _
    refine ⟨rfl, fun a ha => ?_⟩
    rw [List.flatMap_nil, List.append_nil, split_single ha]
    rfl
  | cons l ls ih =>
    intro h
    obtain ⟨_, i2⟩ := ih fun l hl => h l (by simp [hl])
    have h2 : ∀ a : Str, '\n' ∉ a → ReadReport.split (a ++ (l :: ls).flatMap (result training)) =
        a :: (l :: ls).map (lineOf training) := by
      intro a ha
      rw [List.flatMap_cons]
      show ReadReport.split (a ++ ('\n' :: (lineOf training l ++ ls.flatMap (result training)))) = _
      rw [split_append _ ha, i2 _ (lineOf_clean training (h l (by simp))), List.map_cons]
    refine ⟨?_, h2⟩
    have := h2 [] (by simp)
    rw [List.nil_append] at this
    rw [this]
    rfl

theorem bodies (training : Bool) (ls : List Str) (h : ∀ l ∈ ls, '\n' ∉ l) :
    (ReadReport.split (ls.flatMap (result training))).tail.map ReadReport.body = ls := by
  rw [(split_lines training ls h).1, List.map_map]
  conv => rhs; rw [← List.map_id ls]
  exact List.map_congr_left fun l _ => body_lineOf training l

/-! ### Columns -/

/-- Fits in a column and does not start with a blank. -/
def Fits (s : Str) : Prop := s.length ≤ 12 ∧ s.head? ≠ some ' '

theorem setw_length {s : Str} (h : s.length ≤ 12) : (setw s).length = 12 := by
  unfold setw; simp; omega

theorem strip_blanks (n : Nat) {s : Str} (h : s.head? ≠ some ' ') : ReadReport.strip (List.replicate n ' ' ++ s) = s := by
  unfold ReadReport.strip
  induction n with
  | zero =>
    cases s with
    | nil => rfl
    | cons c s => rw [List.replicate_zero, List.nil_append, List.dropWhile_cons_of_neg (by simpa using h)]
  | succ n ih =>
    rw [List.replicate_succ, List.cons_append, List.dropWhile_cons_of_pos (by simp), ih]

theorem strip_setw {s : Str} (h : s.head? ≠ some ' ') : ReadReport.strip (setw s) = s := strip_blanks _ h

theorem cells_flatMap : ∀ (l : List Str), (∀ s ∈ l, Fits s) → ReadReport.cells (l.flatMap setw) = l := by
  intro l
  induction l with
  | nil => intro _; rfl
  | cons a l ih =>
    intro h
    have ha := h a (by simp)
    have h12 := setw_length ha.1
    unfold ReadReport.cells at ih ⊢
    rw [List.flatMap_cons]
    have hl : (setw a ++ l.flatMap setw).length / 12 = (l.flatMap setw).length / 12 + 1 := by
      rw [List.length_append, h12]; omega
    rw [hl, List.range_succ_eq_map, List.map_cons, List.map_map]
    congr 1
    · rw [Nat.mul_zero, List.drop_zero, ← h12, List.take_left]
      exact strip_setw ha.2
    · conv => rhs; rw [← ih fun s hs => h s (by simp [hs])]
      apply List.map_congr_left
      intro i _
      show ReadReport.strip (((setw a ++ l.flatMap setw).drop (12 * (i + 1))).take 12) = _
      rw [show 12 * (i + 1) = (setw a).length + 12 * i by rw [h12]; omega, List.drop_length_add_append]

/-! ### Numbers -/

theorem decimal_digitsOf (n : Nat) : ReadReport.decimal (digitsOf n) = some n := by
  unfold ReadReport.decimal
  rw [if_pos ⟨digitsOf_ne_nil n, List.all_eq_true.2 fun c hc => digitsOf_isDigit hc⟩]
  have := digitsValue_digitsOf n
  unfold digitsValue at this
  conv at this => lhs; arg 1; ext n c; rw [Nat.mul_comm]
  exact congrArg some this

theorem digitsOf_length {n : Nat} (h : n < 10 ^ 12) : (digitsOf n).length ≤ 12 :=
  (Nat.length_toDigits_le_iff (by omega) (by omega)).2 h

theorem digitsOf_fits {n : Nat} (h : n < 10 ^ 12) : Fits (digitsOf n) := by
  refine ⟨digitsOf_length h, ?_⟩
  intro e
  have : ' ' ∈ digitsOf n := List.mem_of_mem_head? e
  exact absurd (digitsOf_isDigit this) (by decide)

theorem digitsOf_clean (n : Nat) : '\n' ∉ digitsOf n := fun h => absurd (digitsOf_isDigit h) (by decide)

section
variable {R : Type _} [Field R] [LinearOrder R] [IsStrictOrderedRing R] [FloorRing R]

theorem toLong_nonneg {v : R} (h : 0 ≤ v) (hb : v < 2 ^ 63) : toLong v = some (⌊v⌋₊ : Int) := by
  unfold toLong
  rw [if_pos h]
  have h1 : 0 ≤ ⌊v⌋ := Int.floor_nonneg.2 h
  have h2 : ⌊v⌋ < 2 ^ 63 := by
    rw [Int.floor_lt]; norm_num at hb ⊢; exact hb
  dsimp only
  rw [if_pos ⟨by omega, h2⟩, Int.natCast_floor_eq_floor h]

end

/-! ### Loops that write -/

theorem forLoop_text {n : Nat} {f : Nat → Str → Option Str} {g : Nat → Str} (h : ∀ i s, i < n → f i s = some (s ++ g i)) (s : Str) :
    forLoop n f s = some (s ++ (List.range n).flatMap g) := by
  induction n with
  | zero => simp
  | succ n ih =>
    rw [forLoop_succ, ih fun i s hi => h i s (by omega), Option.bind_some, h n _ (by omega), List.range_succ, List.flatMap_append]
    simp

end CN24.MatrixReport
