import Verif.Proof.Device

/-!
C52: tensors on the host and on the device.

`Device.run` executes histories of constructions, copies, moves between objects, resizes, shadows, moves
between host and device, reads, writes, `Clear` and destructions on any number of tensors, as
src/util/Tensor.cpp does with OpenCL; `Spec.Run` describes which histories keep to the rules of the
interface and what their reads return, in terms of one list of values per tensor that does not know about
the two sides: only the side of the last move, and that a move that skips the copy forgets the values.
-/

namespace CN24.Props
open Device Device.Spec

variable {V : Type _}

/-- Every history that keeps to the rules runs without errors, and every read, on either side and through
any shadow, returns the last value written on any side, unless that value was given up by a skipped copy. -/
theorem C52_coherent_partial {ops : List (Op V)} {S : State V} {outs : List (Option V)}
    (h : Run {} ops S outs) :
    ∃ w gots, run {} ops = .done (w, gots) ∧ Matches outs gots :=
  run_refines h inv_empty dead_empty

/-- The values read by a history. -/
def C52_reads (ops : List (Op V)) : Outcome (List (Option V)) :=
  (run {} ops).bind fun (r : World V × List (Option V)) => .done r.2

/-- The same, as a statement about the read at one position of a history. -/
theorem C52_read {ops : List (Op V)} {S : State V} {outs : List (Option V)} (h : Run {} ops S outs)
    {k : Nat} {v : V} (hk : outs[k]? = some (some v)) :
    ∃ gots, C52_reads ops = .done gots ∧ gots[k]? = some (some v) := by
  obtain ⟨w, gots, h1, h2⟩ := C52_coherent_partial h
  exact ⟨gots, by unfold C52_reads; rw [h1]; rfl, h2.2 k v hk⟩

/-- A history with a shadow of a shadow: values written through one tensor on one side are read through
another on the other side. -/
def C52_exampleOps : List (Op Nat) :=
  [.construct 0 2, .construct 1 5, .construct 2 0, .clear 0 7, .shadow 1 0, .shadow 2 1, .toDevice 2 false,
    .readDevice 0 1, .writeDevice 1 0 3, .toHost 0 false, .readHost 2 0, .writeHost 2 1 4, .copy 3 1,
    .toDevice 1 true, .writeDevice 0 0 8, .toHost 2 false, .readHost 1 0, .readHost 3 1, .destroy 2]

example : ∃ S, Run {} C52_exampleOps S [none, none, none, none, none, none, none, some 7,
    none, none, some 3, none, none, none, none, none, some 8, some 4, none] := by
  apply Exists.intro
  refine .cons (s'' := ?w) (.construct rfl) ?_
  refine .cons (s'' := ?w) (.construct rfl) ?_
  refine .cons (s'' := ?w) (.construct rfl) ?_
  refine .cons (s'' := ?w) (.clear (r := 0) (o := none) rfl) ?_
  refine .cons (s'' := ?w) (.shadow (ri := 1) (oi := none) (r := 0) (o := none) (by decide) rfl ?_ rfl ?_) ?_
  · intro k r e
    simp only [State.slot, State.store, State.fresh] at e
    repeat' split at e
    all_goals cases e
  · intro e; cases e
  refine .cons (s'' := ?w) (.shadow (ri := 2) (oi := none) (r := 0) (o := some 0) (by decide) rfl ?_ rfl ?_) ?_
  · intro k r e
    simp only [State.slot, State.store, State.fresh] at e
    repeat' split at e
    all_goals cases e
  · intro e; cases e
  refine .cons (s'' := ?w) (.toDevice (r := 0) (o := some 1) rfl ?_) ?_
  · intro e; cases e
  refine .cons (s'' := ?w) (.readDevice (r := 0) (o := none) rfl rfl rfl) ?_
  refine .cons (s'' := ?w) (.writeDevice (r := 0) (o := some 0) rfl rfl (by decide)) ?_
  refine .cons (s'' := ?w) (.toHost (r := 0) (o := none) rfl) ?_
  refine .cons (s'' := ?w) (.readHost (r := 0) (o := some 1) rfl rfl rfl) ?_
  refine .cons (s'' := ?w) (.writeHost (r := 0) (o := some 1) rfl rfl (by decide)) ?_
  refine .cons (s'' := ?w) (.copy (r := 0) (o := some 0) rfl rfl rfl) ?_
  refine .cons (s'' := ?w) (.toDevice (r := 0) (o := some 0) rfl ?_) ?_
  · intro e; cases e
  refine .cons (s'' := ?w) (.writeDevice (r := 0) (o := none) rfl rfl (by decide)) ?_
  refine .cons (s'' := ?w) (.toHost (r := 0) (o := some 1) rfl) ?_
  refine .cons (s'' := ?w) (.readHost (r := 0) (o := some 0) rfl rfl rfl) ?_
  refine .cons (s'' := ?w) (.readHost (r := 3) (o := none) rfl rfl rfl) ?_
  refine .cons (s'' := ?w) (.destroy (r := 0) (o := some 1) rfl ?_) .nil
  intro k r e
  simp only [State.slot, State.store, State.fresh] at e
  repeat' split at e
  all_goals first | cases e | skip

example : C52_reads C52_exampleOps = .done [none, none, none, none, none, none, none, some 7,
    none, none, some 3, none, none, none, none, none, some 8, some 4, none] := rfl

/-! ### Where coherence fails

Each of the following histories uses only operations of the interface, but breaks one of the rules. -/

/-- A tensor that was a shadow keeps the device buffer of the other tensor when it gets a size of its own:
its first move to the device overwrites the other tensor's values there. -/
theorem C52_former_shadow_overwrites :
    C52_reads (V := Nat) [.construct 0 2, .clear 0 7, .construct 1 2, .shadow 1 0, .toDevice 0 false,
      .resize 1 1, .clear 1 5, .toDevice 1 false, .readDevice 0 0] =
    .done [none, none, none, none, none, none, none, none, some 5] := rfl

/-- … and its moves fail when it grew. -/
theorem C52_former_shadow_fails :
    C52_reads (V := Nat) [.construct 0 2, .clear 0 7, .construct 1 2, .shadow 1 0, .resize 1 3, .clear 1 5,
      .toDevice 1 false] = .fatal := rfl

/-- … and its buffer is gone when the other tensor is. -/
theorem C52_former_shadow_dangles :
    C52_reads (V := Nat) [.construct 0 2, .clear 0 7, .construct 1 2, .shadow 1 0, .resize 1 1, .clear 1 5,
      .destroy 0, .toDevice 1 false] = .undefined := rfl

/-- Data mapped from a file can be moved to the device but not back: the memory is read-only. -/
theorem C52_mapped_cannot_return :
    C52_reads (V := Nat) [.construct 0 1, .map 0 [5, 6], .toDevice 0 false, .readDevice 0 1] =
      .done [none, none, none, some 6] ∧
    C52_reads (V := Nat) [.construct 0 1, .map 0 [5, 6], .toDevice 0 false, .toHost 0 false] = .undefined :=
  ⟨rfl, rfl⟩

/-- … so that it cannot be shadowed either. -/
theorem C52_mapped_cannot_be_shadowed :
    C52_reads (V := Nat) [.construct 0 1, .map 0 [5, 6], .construct 1 1, .shadow 1 0] = .undefined := rfl

/-- A tensor that was moved away keeps its device buffer: it cannot be used on the device with a larger
size. -/
theorem C52_moved_away_keeps_buffer :
    C52_reads (V := Nat) [.construct 0 2, .clear 0 7, .toDevice 0 false, .move 1 0, .resize 0 3, .clear 0 1,
      .toDevice 0 false] = .fatal := rfl

/-- The copy constructor does not move the original to the host: the copy has the values from before the
last move to the device. -/
theorem C52_copy_is_stale :
    C52_reads (V := Nat) [.construct 0 1, .clear 0 7, .toDevice 0 false, .writeDevice 0 0 9, .copy 1 0,
      .readHost 1 0, .readDevice 0 0] = .done [none, none, none, none, none, some 7, some 9] := rfl

/-- Empty tensors can neither be moved to the device nor shadowed. -/
theorem C52_empty_fails :
    C52_reads (V := Nat) [.construct 0 0, .toDevice 0 false] = .fatal ∧
    C52_reads (V := Nat) [.construct 0 0, .construct 1 0, .shadow 1 0] = .fatal := ⟨rfl, rfl⟩

/-- Moving a tensor away leaves its shadows without an owner: the host data of the shadow can still be
read, but it can not be moved to the device. -/
theorem C52_orphaned_shadow :
    C52_reads (V := Nat) [.construct 0 1, .clear 0 7, .construct 1 1, .shadow 1 0, .move 2 0, .readHost 1 0] =
      .done [none, none, none, none, none, some 7] ∧
    C52_reads (V := Nat) [.construct 0 1, .clear 0 7, .construct 1 1, .shadow 1 0, .move 2 0, .toDevice 1 false] =
      .fatal := ⟨rfl, rfl⟩

end CN24.Props
