/-
Ownership of tensor buffers: constructors, `Resize`, `Shadow`, the move constructor, memory
mapped loading and destruction, over a heap of blocks.
Models src/util/Tensor.cpp (CPU build, POSIX) and include/cn24/util/Tensor.h:325-331.
-/

namespace CN24.Own

/-- How a block was obtained: `new datum[]` or `mmap`. -/
inductive Kind
  | heap
  | mapped
deriving DecidableEq, Repr

/-- The fields of a tensor object that decide about its buffer (include/cn24/util/Tensor.h:
310-331).  The four dimensions are represented by their product `elements_`.  The pointer
`shadow_target_` is only read in OpenCL builds. -/
structure T where
  ptr : Option Nat := none
  elements : Nat := 0
  shadow : Bool := false
  mmapped : Bool := false
  orig : Option Nat := none
deriving DecidableEq, Repr

/-- All blocks ever obtained, with a flag whether the block has not been released yet, and the
tensor objects that exist, by name. -/
structure World where
  blocks : List (Kind × Bool) := []
  tensors : Nat → Option T := fun _ => none

def World.set (w : World) (i : Nat) (t : Option T) : World :=
  { w with tensors := fun k => if k = i then t else w.tensors k }

/-- `delete[]` or `munmap` of a block.  Undefined behaviour (`none`) unless the block was
obtained by the matching function and has not been released.  (`munmap` of a stale address is
not an error for the kernel, it removes whatever was mapped there since.) -/
def release (blocks : List (Kind × Bool)) (k : Kind) (b : Nat) : Option (List (Kind × Bool)) :=
  if blocks[b]? = some (k, true) then some (blocks.set b (k, false)) else none

/-- `Tensor::DeleteIfPossible` (src/util/Tensor.cpp:395-433).  `munmap(nullptr, n)` has no
effect.  Simplification: a released mapping counts as released completely (the code passes the
length without the in-page offset, lines 299 and 400). -/
def deleteIfPossible (blocks : List (Kind × Bool)) (t : T) : Option (List (Kind × Bool) × T) :=
  match t.ptr with
  | some b =>
    if t.shadow then some (blocks, { t with ptr := none, elements := 0, shadow := false })
    else if t.mmapped then
      match t.orig with
      | some o => (release blocks .mapped o).map fun bs =>
          (bs, { ptr := none, elements := 0, shadow := false, mmapped := false, orig := none })
      | none => some (blocks,
          { ptr := none, elements := 0, shadow := false, mmapped := false, orig := none })
    else (release blocks .heap b).map fun bs =>
          (bs, { t with ptr := none, elements := 0, shadow := false })
  | none => some (blocks, { t with elements := 0, shadow := false })

/-- `Tensor::Resize` without preallocated memory (src/util/Tensor.cpp:132-167), with the
`Reshape` it tries first (174-194). -/
def resize (blocks : List (Kind × Bool)) (t : T) (n : Nat) : Option (List (Kind × Bool) × T) :=
  if t.ptr ≠ none ∧ t.elements = n then some (blocks, t)
  else (deleteIfPossible blocks t).map fun (bs, t) =>
    if n = 0 then (bs, t)
    else (bs ++ [(.heap, true)], { t with ptr := some bs.length, elements := n })

/-- The memory mapped branch of `Tensor::Deserialize` (src/util/Tensor.cpp:284-312) with
`Resize` for preallocated memory (132-167): the new mapping is recorded in `original_mmap_`
before the old buffer is released.  Simplification: `mmap` succeeds, at an address different
from the data pointer of the tensor. -/
def mapFile (blocks : List (Kind × Bool)) (t : T) (n : Nat) : Option (List (Kind × Bool) × T) :=
  if n = 0 then some (blocks, t)
  else
    let bs := blocks ++ [(Kind.mapped, true)]
    let b := blocks.length
    (deleteIfPossible bs { t with orig := some b }).map fun (bs, t) =>
      (bs, { t with ptr := some b, elements := n, mmapped := true })

/-- Reading or writing all elements through the data pointer. -/
def access (blocks : List (Kind × Bool)) (t : T) : Option Unit :=
  if t.elements = 0 then some ()
  else match t.ptr with
    | some b => if (blocks[b]?.map (·.2)) = some true then some () else none
    | none => none

/-- Operations on tensor objects, which are named by numbers. -/
inductive Op
  | construct (i : Nat)
  | constructSized (i n : Nat)
  | copy (i j : Nat)
  | move (i j : Nat)
  | resize (i n : Nat)
  | shadow (i j : Nat)
  | mapFile (i n : Nat)
  | access (i : Nat)
  | destroy (i : Nat)
deriving DecidableEq, Repr

/-- One operation.  `none` is undefined behaviour.  Operations on objects that do not exist, and
constructions of objects that do, cannot be written down in the program and do nothing. -/
def exec (w : World) : Op → Option World
  -- src/util/Tensor.cpp:36-38
  | .construct i => match w.tensors i with
    | some _ => some w
    | none => some (w.set i (some {}))
  -- src/util/Tensor.cpp:81-84
  | .constructSized i n => match w.tensors i with
    | some _ => some w
    | none => (Own.resize w.blocks {} n).map fun (bs, t) => { w with blocks := bs }.set i (some t)
  -- src/util/Tensor.cpp:45-63
  | .copy i j => match w.tensors i, w.tensors j with
    | none, some src =>
      (Own.resize w.blocks {} src.elements).bind fun (bs, t) =>
        (Own.access bs src).bind fun _ =>
          (Own.access bs t).map fun _ => { w with blocks := bs }.set i (some t)
    | _, _ => some w
  -- src/util/Tensor.cpp:65-79
  | .move i j => match w.tensors i, w.tensors j with
    | none, some src =>
      let t : T := { ptr := src.ptr, elements := src.elements }
      (deleteIfPossible w.blocks { src with ptr := none }).map fun (bs, src) =>
        ({ w with blocks := bs }.set j (some src)).set i (some t)
    | _, _ => some w
  | .resize i n => match w.tensors i with
    | some t => (Own.resize w.blocks t n).map fun (bs, t) => { w with blocks := bs }.set i (some t)
    | none => some w
  -- src/util/Tensor.cpp:111-129; the fields are read after `DeleteIfPossible`
  | .shadow i j => match w.tensors i, w.tensors j with
    | some t, some _ =>
      (deleteIfPossible w.blocks t).bind fun (bs, t) =>
        let w' := { w with blocks := bs }.set i (some t)
        (w'.tensors j).map fun target =>
          w'.set i (some { t with ptr := target.ptr, elements := target.elements, shadow := true })
    | _, _ => some w
  | .mapFile i n => match w.tensors i with
    | some t => (Own.mapFile w.blocks t n).map fun (bs, t) => { w with blocks := bs }.set i (some t)
    | none => some w
  | .access i => match w.tensors i with
    | some t => (Own.access w.blocks t).map fun _ => w
    | none => some w
  -- src/util/Tensor.cpp:87-89
  | .destroy i => match w.tensors i with
    | some t => (deleteIfPossible w.blocks t).map fun (bs, _) => { w with blocks := bs }.set i none
    | none => some w

/-- Histories of a program that starts without tensors. -/
def run (ops : List Op) : Option World := ops.foldlM exec {}

end CN24.Own
