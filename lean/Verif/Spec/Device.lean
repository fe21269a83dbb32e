/-
What a program may rely on for tensors with a copy in device memory, independent of the model: a tensor
is a reference to a store; a store has values, and a side on which it may be used.
-/

namespace CN24.Device

/-- The uses of tensors.  Tensors are named by numbers; `skip` is the argument `no_copy`. -/
inductive Op (V : Type _) where
  | construct (i n : Nat)
  | copy (i j : Nat)
  | move (i j : Nat)
  | resize (i n : Nat)
  | shadow (i j : Nat)
  | toDevice (i : Nat) (skip : Bool)
  | toHost (i : Nat) (skip : Bool)
  | writeHost (i k : Nat) (v : V)
  | readHost (i k : Nat)
  | writeDevice (i k : Nat) (v : V)
  | readDevice (i k : Nat)
  | clear (i : Nat) (v : V)
  | map (i : Nat) (vs : List V)
  | destroy (i : Nat)
  deriving DecidableEq, Repr

namespace Spec
variable {V : Type _}

/-- A store: its side, and its values; `none` is a value nobody has written. -/
structure Store (V : Type _) where
  onDevice : Bool := false
  vals : List (Option V) := []

/-- A tensor object: not there, moved away, or a reference to a store, possibly as a shadow of another
tensor. -/
inductive Slot where
  | absent
  | spent
  | live (ref : Nat) (of : Option Nat)
  deriving DecidableEq, Repr

structure State (V : Type _) where
  slots : Nat → Slot := fun _ => .absent
  stores : Nat → Store V := fun _ => {}
  next : Nat := 0

def State.slot (s : State V) (i : Nat) (x : Slot) : State V :=
  { s with slots := fun k => if k = i then x else s.slots k }

def State.store (s : State V) (r : Nat) (x : Store V) : State V :=
  { s with stores := fun k => if k = r then x else s.stores k }

/-- A tensor with a store of its own. -/
def State.fresh (s : State V) (i : Nat) (x : Store V) : State V :=
  { (s.slot i (.live s.next none)).store s.next x with next := s.next + 1 }

/-- No other tensor is a shadow of this one. -/
def State.Free (s : State V) (i : Nat) : Prop := ∀ k r, s.slots k ≠ .live r (some i)

/-- A step of a program that keeps to the rules, with the value of a read.  The rules: data is used on
the side it was last moved to; there is data to be moved to the device; tensors that have shadows are not
resized, moved away, made shadows or destroyed; shadows are not given another size; tensors that were
moved away are not used; no tensor is mapped from a file. -/
inductive Step : State V → Op V → State V → Option V → Prop
  | construct {s i n} (hi : s.slots i = .absent) :
      Step s (.construct i n) (s.fresh i ⟨false, List.replicate n none⟩) none
  | copy {s i j r o} (hi : s.slots i = .absent) (hj : s.slots j = .live r o)
      (hside : (s.stores r).onDevice = false) :
      Step s (.copy i j) (s.fresh i ⟨false, (s.stores r).vals⟩) none
  | move {s i j r} (hi : s.slots i = .absent) (hj : s.slots j = .live r none) (hf : s.Free j) :
      Step s (.move i j) (((s.slot j .spent).slot i (.live r none)).store r ⟨false, (s.stores r).vals⟩) none
  | reshape {s i r o n} (hi : s.slots i = .live r o) (hn : (s.stores r).vals.length = n) :
      Step s (.resize i n) s none
  | resize {s i r n} (hi : s.slots i = .live r none) (hf : s.Free i) (hn : (s.stores r).vals.length ≠ n) :
      Step s (.resize i n) (s.fresh i ⟨false, List.replicate n none⟩) none
  | shadow {s i j ri oi r o} (hij : i ≠ j) (hi : s.slots i = .live ri oi) (hf : s.Free i)
      (hj : s.slots j = .live r o) (hn : (s.stores r).vals ≠ []) :
      Step s (.shadow i j) ((s.slot i (.live r (some j))).store r ⟨false, (s.stores r).vals⟩) none
  | toDevice {s i r o skip} (hi : s.slots i = .live r o) (hn : (s.stores r).vals ≠ []) :
      Step s (.toDevice i skip) (s.store r ⟨true, if skip then (s.stores r).vals.map fun _ => none
        else (s.stores r).vals⟩) none
  | toHost {s i r o skip} (hi : s.slots i = .live r o) :
      Step s (.toHost i skip) (s.store r ⟨false, if skip then (s.stores r).vals.map fun _ => none
        else (s.stores r).vals⟩) none
  | writeHost {s i r o k v} (hi : s.slots i = .live r o) (hside : (s.stores r).onDevice = false)
      (hk : k < (s.stores r).vals.length) :
      Step s (.writeHost i k v) (s.store r ⟨false, (s.stores r).vals.set k (some v)⟩) none
  | readHost {s i r o k a} (hi : s.slots i = .live r o) (hside : (s.stores r).onDevice = false)
      (hk : (s.stores r).vals[k]? = some a) : Step s (.readHost i k) s a
  | writeDevice {s i r o k v} (hi : s.slots i = .live r o) (hside : (s.stores r).onDevice = true)
      (hk : k < (s.stores r).vals.length) :
      Step s (.writeDevice i k v) (s.store r ⟨true, (s.stores r).vals.set k (some v)⟩) none
  | readDevice {s i r o k a} (hi : s.slots i = .live r o) (hside : (s.stores r).onDevice = true)
      (hk : (s.stores r).vals[k]? = some a) : Step s (.readDevice i k) s a
  | clear {s i r o v} (hi : s.slots i = .live r o) :
      Step s (.clear i v) (s.store r ⟨false, (s.stores r).vals.map fun _ => some v⟩) none
  | destroy {s i r o} (hi : s.slots i = .live r o) (hf : s.Free i) :
      Step s (.destroy i) (s.slot i .absent) none
  | discard {s i} (hi : s.slots i = .spent) : Step s (.destroy i) (s.slot i .absent) none

/-- Histories, with the values of all reads. -/
inductive Run : State V → List (Op V) → State V → List (Option V) → Prop
  | nil {s} : Run s [] s []
  | cons {s op s' a ops s'' as} (h : Step s op s' a) (hs : Run s' ops s'' as) :
      Run s (op :: ops) s'' (a :: as)

/-- A result is one the program may expect: values that were written are returned. -/
def Matches (expected got : List (Option V)) : Prop :=
  expected.length = got.length ∧ ∀ (k : Nat) (v : V), expected[k]? = some (some v) → got[k]? = some (some v)

end Spec
end CN24.Device
