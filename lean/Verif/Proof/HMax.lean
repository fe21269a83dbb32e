import Verif.Model.HMax
import Verif.Proof.Activations
import Mathlib.Algebra.BigOperators.Group.Finset.Basic

namespace CN24.HMax
open CN24 Tensor Finset
variable {R : Type _} [Field R]

/-- The input deltas alone. -/
def inputDeltas (log : R → R) (c : Config R) (n : Nat) (output outputDelta inDelta : Tensor R) : Option (Tensor R) :=
  Activations.elementwise n (fun e => (rd outputDelta.data e).bind fun d => (rd output.data e).map fun o =>
    inputDelta log c o d) inDelta

/-- The deltas of the weights before the multiplication with the local learning rate. -/
def weightDelta (c : Config R) (input output : Tensor R) : R × R :=
  (-(input.elements : R) / c.a * c.lossWeight +
    ∑ e ∈ range input.elements, stepA c (input.data.getD e 0) (output.data.getD e 0),
   -(input.elements : R) * c.lossWeight + ∑ e ∈ range input.elements, stepB c (output.data.getD e 0))

theorem backward_eq (log : R → R) (c : Config R) {input output outputDelta inDelta : Tensor R} (hi : input.WF)
    (ho : output.WF) (hd : outputDelta.WF) (ht : inDelta.WF) (e1 : output.elements = input.elements)
    (e2 : outputDelta.elements = input.elements) (e3 : inDelta.elements = input.elements) :
    ∃ t, inputDeltas log c input.elements output outputDelta inDelta = some t ∧
      backward log c input output outputDelta inDelta =
        some (t, c.localLr * (weightDelta c input output).1, c.localLr * (weightDelta c input output).2) := by
  unfold WF at hi ho hd ht
  let A0 := -(input.elements : R) / c.a * c.lossWeight
  let B0 := -(input.elements : R) * c.lossWeight
  let F : Nat → Tensor R × R × R → Option (Tensor R × R × R) := fun e st =>
    (rd input.data e).bind fun v =>
    (rd output.data e).bind fun o =>
    (rd outputDelta.data e).bind fun d =>
    (st.1.putElem e (inputDelta log c o d)).map fun t => (t, st.2.1 + stepA c v o, st.2.2 + stepB c o)
  have key : ∃ st, forLoop input.elements F (inDelta, A0, B0) = some st ∧
      inputDeltas log c input.elements output outputDelta inDelta = some st.1 ∧
      st.1.data.length = inDelta.data.length ∧
      st.2.1 = A0 + ∑ e ∈ range input.elements, stepA c (input.data.getD e 0) (output.data.getD e 0) ∧
      st.2.2 = B0 + ∑ e ∈ range input.elements, stepB c (output.data.getD e 0) := by
    refine forLoop_inv (fun (k : Nat) (st : Tensor R × R × R) => inputDeltas log c k output outputDelta inDelta = some st.1 ∧
      st.1.data.length = inDelta.data.length ∧
      st.2.1 = A0 + ∑ e ∈ range k, stepA c (input.data.getD e 0) (output.data.getD e 0) ∧
      st.2.2 = B0 + ∑ e ∈ range k, stepB c (output.data.getD e 0)) ⟨rfl, rfl, by simp, by simp⟩ ?_
    intro k st hk ⟨p1, p2, p3, p4⟩
    have hv : rd input.data k = some (input.data.getD k 0) := rd_getD 0 (by rw [hi]; exact hk)
    have hov : rd output.data k = some (output.data.getD k 0) := rd_getD 0 (by rw [ho, e1]; exact hk)
    have hdv : rd outputDelta.data k = some (outputDelta.data.getD k 0) := rd_getD 0 (by rw [hd, e2]; exact hk)
    have hp : ∀ v, st.1.putElem k v = some { st.1 with data := st.1.data.set k v } := by
      intro v
      have : k < st.1.data.length := by rw [p2, ht, e3]; exact hk
      simp [putElem, wr, this]
    refine ⟨({ st.1 with data := st.1.data.set k (inputDelta log c (output.data.getD k 0) (outputDelta.data.getD k 0)) },
      st.2.1 + stepA c (input.data.getD k 0) (output.data.getD k 0), st.2.2 + stepB c (output.data.getD k 0)),
      ?_, ?_, ?_, ?_, ?_⟩
    · simp only [F, hv, hov, hdv, Option.bind_some, hp, Option.map_some]
    · have p1' : forLoop k (fun e t => ((rd outputDelta.data e).bind fun d => (rd output.data e).map fun o =>
          inputDelta log c o d).bind fun v => t.putElem e v) inDelta = some st.1 := p1
      unfold inputDeltas Activations.elementwise
      rw [forLoop_succ, p1', Option.bind_some]
      beta_reduce
      rw [hdv, hov]
      simp only [Option.bind_some, Option.map_some, hp]
    · simpa using p2
    · rw [Finset.sum_range_succ, ← add_assoc, ← p3]
    · rw [Finset.sum_range_succ, ← add_assoc, ← p4]
  obtain ⟨st, h1, h2, -, h3, h4⟩ := key
  refine ⟨st.1, h2, ?_⟩
  unfold backward
  show (forLoop input.elements F (inDelta, A0, B0)).map _ = _
  rw [h1]
  show some (st.1, c.localLr * st.2.1, c.localLr * st.2.2) = _
  rw [h3, h4]
  rfl

end CN24.HMax
