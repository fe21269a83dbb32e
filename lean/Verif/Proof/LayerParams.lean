import Verif.Spec.LayerParams
import Verif.Props.Config

/-
Reading parameters from a line of words and `name=value` pairs that fit a vocabulary.
-/

namespace CN24.Props
open CN24 CN24.Config CN24.LayerParams

def pairOf (p : Str × Value) : Str × Str := (p.1, p.2.text)

/-- A line: words, then the parameters. -/
def paramLine (words : List Str) (ps : Params) : Str := joinSp (words ++ (ps.map pairOf).map pairText)

theorem value_not_eq {v : Value} (hv : v.Ok) : v.text ≠ [] ∧ (∀ c ∈ v.text, valueChar c = true) := by
  have hx : valueChar 'x' = true := by decide
  cases v with
  | count n => exact ⟨digitsOf_ne_nil n, fun c hc => digitsOf_valueChar hc⟩
  | size a b =>
    refine ⟨by simp [Value.text], fun c hc => ?_⟩
    rcases List.mem_append.1 hc with h | h
    · exact digitsOf_valueChar h
    · rcases List.mem_cons.1 h with rfl | h
      · exact hx
      · exact digitsOf_valueChar h
  | word s =>
    refine ⟨hv.1, fun c hc => ?_⟩
    have := hv.2 c hc
    unfold alnumDot at this
    unfold valueChar
    simp only [Bool.or_eq_true] at this ⊢
    rcases this with ((h | h) | h) | h <;> simp [h]

theorem value_plain {v : Value} (hv : v.Ok) {c : Char} (hc : valueChar c = false) : c ∉ v.text := by
  intro hm
  have := (value_not_eq hv).2 c hm
  rw [hc] at this
  cases this

/-- The first parameter with a name, or its absence. -/
theorem first_split (name : Str) (ps : Params) :
    (first name ps = none ∧ ∀ p ∈ ps, p.1 ≠ name) ∨
    ∃ v qs rs, first name ps = some v ∧ ps = qs ++ (name, v) :: rs ∧ ∀ p ∈ qs, p.1 ≠ name := by
  induction ps with
  | nil => left; simp [first]
  | cons p ps ih =>
    obtain ⟨k, v⟩ := p
    unfold first
    by_cases hk : k = name
    · right
      exact ⟨v, [], ps, by rw [if_pos hk], by simp [hk], by simp⟩
    · rw [if_neg hk]
      rcases ih with ⟨h1, h2⟩ | ⟨w, qs, rs, h1, h2, h3⟩
      · left
        refine ⟨h1, ?_⟩
        intro q hq
        rcases List.mem_cons.1 hq with rfl | hq
        · exact hk
        · exact h2 q hq
      · right
        refine ⟨w, (k, v) :: qs, rs, h1, by rw [h2]; rfl, ?_⟩
        intro q hq
        rcases List.mem_cons.1 hq with rfl | hq
        · exact hk
        · exact h3 q hq

theorem first_mem {name : Str} {ps : Params} {v : Value} (h : first name ps = some v) : (name, v) ∈ ps := by
  rcases first_split name ps with ⟨h1, _⟩ | ⟨w, qs, rs, h1, h2, _⟩
  · rw [h1] at h; cases h
  · rw [h1] at h; cases h; rw [h2]; simp

/-- A name that can be read: no blank, and no `x` if it takes a size. -/
def Readable (n : String) (k : List Kind) : Prop := ' ' ∉ n.toList ∧ (Kind.size ∈ k → 'x' ∉ n.toList)

instance (n : String) (k : List Kind) : Decidable (Readable n k) := by unfold Readable; infer_instance

section
variable {known : Vocabulary} {ps : Params} {words : List Str} {n : String} {k : List Kind}

/-- The other names cannot be mistaken for this one. -/
theorem _root_.CN24.LayerParams.Typed.others (h : Typed known ps) (hn : (n, k) ∈ known) {qs : Params}
    (hqs : ∀ p ∈ qs, p ∈ ps) (hne : ∀ p ∈ qs, p.1 ≠ n.toList) :
    ∀ q ∈ qs.map pairOf, '=' ∉ q.1 ∧ '=' ∉ q.2 ∧ ¬ n.toList <:+ q.1 := by
  intro q hq
  obtain ⟨p, hp, rfl⟩ := List.mem_map.1 hq
  refine ⟨(h.name_plain p (hqs p hp)).1, value_plain (h.value_ok p (hqs p hp)) (by decide), ?_⟩
  intro hs
  exact hne p hp (h.kinds p (hqs p hp) n k hn hs).1

theorem words_ok (hw : ∀ w ∈ words, '=' ∉ w) : ∀ w ∈ words, ¬ (n.toList ++ ['=']) <:+: w :=
  fun w h hi => hw w h (hi.subset (by simp))

theorem read_absent (h : Typed known ps) (hw : ∀ w ∈ words, '=' ∉ w) (hn : (n, k) ∈ known)
    (hr : Readable n k) (hne : ∀ p ∈ ps, p.1 ≠ n.toList) :
    param (paramLine words ps) n.toList = some none :=
  (C18_absent_partial words (ps.map pairOf) n.toList hr.1 (words_ok hw)
    (h.others hn (fun _ h => h) hne) 0).1

theorem read_present {qs rs : Params} {v : Value} (h : Typed known ps) (hw : ∀ w ∈ words, '=' ∉ w)
    (hn : (n, k) ∈ known) (hr : Readable n k) (hps : ps = qs ++ (n.toList, v) :: rs)
    (hne : ∀ p ∈ qs, p.1 ≠ n.toList) :
    param (paramLine words ps) n.toList = some (some v.text) := by
  have hsp : ' ' ∉ v.text := value_plain (h.value_ok (n.toList, v) (by rw [hps]; simp)) (by decide)
  have := C18_read_partial words (qs.map pairOf) (rs.map pairOf) n.toList v.text hr.1 hsp
    (words_ok hw) (h.others hn (fun p hp => by rw [hps]; simp [hp]) hne)
  rw [hps]
  unfold paramLine
  simpa [pairOf] using this

theorem read_count (h : Typed known ps) (hw : ∀ w ∈ words, '=' ∉ w) (hn : (n, [Kind.count]) ∈ known)
    (hr : Readable n [Kind.count]) (old : Nat) :
    parseCount (paramLine words ps) n.toList old = some (countGiven ps n old) := by
  rcases first_split n.toList ps with ⟨h1, h2⟩ | ⟨v, qs, rs, h1, h2, h3⟩
  · unfold parseCount countGiven
    rw [read_absent h hw hn hr h2, h1]; rfl
  · have hmem : (n.toList, v) ∈ ps := by rw [h2]; simp
    have hkind := (h.kinds _ hmem n _ hn (List.suffix_refl _)).2
    cases v with
    | count m =>
      have hm : m ≤ 2147483647 := h.value_ok _ hmem
      have := C18_count_partial words (qs.map pairOf) (rs.map pairOf) n.toList m old hr.1
        (words_ok hw) (h.others hn (fun p hp => by rw [h2]; simp [hp]) h3) hm
      unfold countGiven paramLine
      rw [h1, h2]
      simpa [pairOf, Value.text, digitsOf] using this
    | size a b => simp [Value.kind] at hkind
    | word s => simp [Value.kind] at hkind

theorem read_size (h : Typed known ps) (hw : ∀ w ∈ words, '=' ∉ w) (hn : (n, [Kind.size]) ∈ known)
    (hr : Readable n [Kind.size]) (old : Nat × Nat)
    (hlen : (paramLine words ps).length < 18446744073709551616) :
    parseKernelSize (paramLine words ps) n.toList old = some (sizeGiven ps n old) := by
  unfold paramLine at hlen ⊢
  rcases first_split n.toList ps with ⟨h1, h2⟩ | ⟨v, qs, rs, h1, h2, h3⟩
  · have hfind : find (n.toList ++ ['=']) (joinSp (words ++ (ps.map pairOf).map pairText)) = none := by
      apply find_words_none (by simp [hr.1]) (by simp)
      intro w hw'
      rcases List.mem_append.1 hw' with hw' | hw'
      · exact words_ok hw w hw'
      · obtain ⟨⟨a, b⟩, hp, rfl⟩ := List.mem_map.1 hw'
        have := h.others hn (fun _ h => h) h2 _ hp
        rw [infix_pair_iff this.1 this.2.1]
        exact this.2.2
    unfold parseKernelSize sizeGiven
    simp only [hfind, h1]
  · have hmem : (n.toList, v) ∈ ps := by rw [h2]; simp
    have hkind := (h.kinds _ hmem n _ hn (List.suffix_refl _)).2
    cases v with
    | size a b =>
      have hab : a ≤ 2147483647 ∧ b ≤ 2147483647 := h.value_ok _ hmem
      have hl : (joinSp (words ++ (qs.map pairOf ++ (n.toList, digitsOf a ++ 'x' :: digitsOf b) ::
          rs.map pairOf).map pairText)).length < 18446744073709551616 := by
        rw [h2] at hlen
        simpa [pairOf, Value.text, digitsOf] using hlen
      have := C18_kernel_size_partial words (qs.map pairOf) (rs.map pairOf) n.toList a b old
        hr.1 (hr.2 (by simp)) (words_ok hw)
        (h.others hn (fun p hp => by rw [h2]; simp [hp]) h3) hab.1 hab.2 hl
      unfold sizeGiven
      rw [h1, h2]
      simpa [pairOf, Value.text, digitsOf] using this
    | count m => simp [Value.kind] at hkind
    | word s => simp [Value.kind] at hkind

theorem read_param (h : Typed known ps) (hw : ∀ w ∈ words, '=' ∉ w) (hk : Kind.size ∉ k)
    (hn : (n, k) ∈ known) (hr : Readable n k) :
    param (paramLine words ps) n.toList = some (wordGiven ps n) := by
  rcases first_split n.toList ps with ⟨h1, h2⟩ | ⟨v, qs, rs, h1, h2, h3⟩
  · unfold wordGiven
    rw [read_absent h hw hn hr h2, h1]
  · have hmem : (n.toList, v) ∈ ps := by rw [h2]; simp
    have hkind := (h.kinds _ hmem n _ hn (List.suffix_refl _)).2
    unfold wordGiven
    rw [read_present h hw hn hr h2 h3, h1]
    cases v with
    | size a b => exact absurd hkind hk
    | count m => rfl
    | word s => rfl

theorem read_word {D : Type _} (conv : Str → D) (h : Typed known ps) (hw : ∀ w ∈ words, '=' ∉ w)
    (hn : (n, [Kind.count, Kind.word]) ∈ known) (hr : Readable n [Kind.count, Kind.word]) (old : D) :
    parseDatum conv (paramLine words ps) n.toList old = some (((wordGiven ps n).map conv).getD old) := by
  unfold parseDatum
  rw [read_param h hw (by decide) hn hr]
  cases wordGiven ps n <;> rfl

end

end CN24.Props
