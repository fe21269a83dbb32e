import Verif.Model.NetGraph
import Verif.Proof.Stream

/-! Saving and loading the parameters of a network. -/

namespace CN24.Net
open Tensor IStream

/-- The stream is at `bs`, or all has been read and the end has been seen. -/
def Ready (s : IStream) (bs : List Byte) : Prop := s.At bs ∨ (bs = [] ∧ s.eof = true)

theorem Ready.at {s : IStream} {bs : List Byte} (h : Ready s bs) (hb : bs ≠ []) : s.At bs := by
  rcases h with h | ⟨h, -⟩
  · exact h
  · exact absurd h hb

theorem serialize_ne_nil (t : Tensor F32) : t.serialize ≠ [] := by
  intro h
  have := congrArg List.length h
  simp [serialize, leBytes_length] at this

/-- Parameters whose records can be written and read back. -/
def Savable (t : Tensor F32) : Prop := t.WF ∧ 0 < t.elements ∧ t.Fits

theorem loadLayer_stop {ps : List (Tensor (Option F32))} {s : IStream}
    (h : s.good = false ∨ s.eof = true) : loadLayer ps s = (ps, s) := by
  cases ps with
  | nil => rfl
  | cons p ps => unfold loadLayer; rw [if_pos h]

theorem loadLayer_length (ps : List (Tensor (Option F32))) (s : IStream) :
    (loadLayer ps s).1.length = ps.length := by
  induction ps generalizing s with
  | nil => rfl
  | cons p ps ih =>
    unfold loadLayer
    split
    · rfl
    · simp [ih]

theorem loadLayer_append (a b : List (Tensor (Option F32))) (s : IStream) :
    loadLayer (a ++ b) s =
      ((loadLayer a s).1 ++ (loadLayer b (loadLayer a s).2).1, (loadLayer b (loadLayer a s).2).2) := by
  induction a generalizing s with
  | nil => simp [loadLayer]
  | cons p a ih =>
    by_cases h : s.good = false ∨ s.eof = true
    · rw [loadLayer_stop h, loadLayer_stop h, loadLayer_stop h]
    · rw [List.cons_append]
      conv => lhs; unfold loadLayer
      rw [if_neg h]
      have : loadLayer (p :: a) s = ((Tensor.deserialize false false s).1 ::
          (loadLayer a (Tensor.deserialize false false s).2.peek).1,
          (loadLayer a (Tensor.deserialize false false s).2.peek).2) := by
        conv => lhs; unfold loadLayer
        rw [if_neg h]
      rw [this]
      simp only [ih, List.cons_append]

theorem loadLayer_ok (saved : List (Tensor F32)) (hs : ∀ t ∈ saved, Savable t) :
    ∀ (ps : List (Tensor (Option F32))) (s : IStream) (rest : List Byte),
      ps.length = saved.length → Ready s (saved.flatMap serialize ++ rest) →
      (loadLayer ps s).1 = saved.map known ∧ Ready (loadLayer ps s).2 rest := by
  induction saved with
  | nil =>
    intro ps s rest hl hr
    have : ps = [] := by simpa using hl
    subst this
    exact ⟨rfl, by simpa [loadLayer] using hr⟩
  | cons t saved ih =>
    intro ps s rest hl hr
    obtain ⟨ht, hs⟩ := List.forall_mem_cons.1 hs
    cases ps with
    | nil => simp at hl
    | cons p ps =>
      rw [List.flatMap_cons, List.append_assoc] at hr
      have hat := hr.at (by simp [serialize_ne_nil])
      obtain ⟨e1, e2⟩ := deserialize_ok false ht.1 ht.2.1 ht.2.2 hat
      unfold loadLayer
      rw [if_neg (by simp [hat.good, hat.1])]
      simp only [e1]
      have hready : Ready (IStream.peek { s with pos := s.pos + t.serialize.length })
          (saved.flatMap serialize ++ rest) := by
        rcases e2.peek with ⟨-, h⟩ | ⟨h, h'⟩
        · rw [h]; exact .inl e2
        · exact .inr ⟨h, h'⟩
      obtain ⟨r1, r2⟩ := ih hs ps _ rest (by simpa using hl) hready
      exact ⟨by simp [r1], r2⟩

/-- A record cut short ends the loading. -/
theorem loadLayer_cut {t : Tensor F32} (ht : Savable t) {j : Nat} (hj : j < t.serialize.length)
    {s : IStream} (hr : Ready s (t.serialize.take j)) (ps : List (Tensor (Option F32))) :
    ∃ head : List (Tensor (Option F32)), head.length ≤ 1 ∧
      (loadLayer ps s).1 = head ++ ps.drop head.length := by
  cases ps with
  | nil => exact ⟨[], by simp, rfl⟩
  | cons p ps =>
    unfold loadLayer
    split
    · exact ⟨[], by simp, by simp⟩
    · rename_i h
      have hat : s.At (t.serialize.take j) := by
        rcases hr with hr | ⟨-, hr⟩
        · exact hr
        · exact absurd (.inr hr) h
      have hcut := deserialize_cut false ht.1 ht.2.1 ht.2.2 hj hat
      have hb := (deserialize_progress s false).1
      rw [← hb] at hcut
      have hend := peek_end hcut
      refine ⟨[(Tensor.deserialize false false s).1], by simp, ?_⟩
      have : loadLayer ps (Tensor.deserialize false false s).2.peek =
          (ps, (Tensor.deserialize false false s).2.peek) := by
        apply loadLayer_stop
        rcases hend with h | h
        · exact .inr h
        · left; simp [IStream.good, h]
      simp [this]

theorem loadLayers_eq (k : Nat) (net : List (List (Tensor (Option F32)))) (s : IStream)
    (hk : k ≤ net.length) :
    ∃ head s', loadLayers k net s = some (head ++ net.drop k, s') ∧
      head.map List.length = (net.take k).map List.length ∧
      (head.flatten, s') = loadLayer (net.take k).flatten s := by
  induction k generalizing net s with
  | zero => exact ⟨[], s, rfl, by simp, rfl⟩
  | succ k ih =>
    cases net with
    | nil => simp at hk
    | cons ps net =>
      obtain ⟨head, s', h1, h2, h3⟩ := ih net (loadLayer ps s).2 (by simpa using hk)
      refine ⟨(loadLayer ps s).1 :: head, s', ?_, ?_, ?_⟩
      · unfold loadLayers
        simp [h1]
      · simp [h2, loadLayer_length]
      · rw [List.take_succ_cons, List.flatten_cons, List.flatten_cons, loadLayer_append, ← h3]

theorem flatten_inj {α : Type} {a b : List (List α)} (hl : a.map List.length = b.map List.length)
    (hf : a.flatten = b.flatten) : a = b := by
  induction a generalizing b with
  | nil => cases b with
    | nil => rfl
    | cons y b => simp at hl
  | cons x a ih =>
    cases b with
    | nil => simp at hl
    | cons y b =>
      simp only [List.map_cons, List.cons.injEq] at hl
      simp only [List.flatten_cons] at hf
      obtain ⟨h1, h2⟩ := List.append_inj hf hl.1
      rw [h1, ih hl.2 h2]

end CN24.Net
