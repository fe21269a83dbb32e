import Verif.Base.Outcome
import Verif.Spec.Device

/-
Model of the device (OpenCL) side of `Conv::Tensor` (src/util/Tensor.cpp, include/cn24/util/Tensor.h),
builds with BUILD_OPENCL.

The command queue is in order and the OpenCL runtime does what its specification says, so that commands
take effect in the order in which they are issued.  Allocations succeed.
-/

namespace CN24.Device
variable {V : Type _}

/-- The fields of a tensor object (include/cn24/util/Tensor.h:292-333).  The four dimensions are
represented by their product `elements_`. -/
structure T where
  data : Option Nat := none
  elements : Nat := 0
  shadow : Option Nat := none
  cl : Option Nat := none
  gpu : Bool := false
  deriving DecidableEq, Repr

/-- Memory blocks: host blocks may be read-only; `none` are values that were never written. -/
structure Block (V : Type _) where
  vals : List (Option V)
  writable : Bool := true
  deriving DecidableEq, Repr

/-- The memory of the program.  `host` and `dev` hold the blocks that exist, `hostNext` and `devNext` are
unused addresses.  `depth` bounds the lengths of chains of shadows (the number of calls of `Shadow`); it
is only there to make the recursion of the moves total. -/
structure World (V : Type _) where
  host : Nat → Option (Block V) := fun _ => none
  hostNext : Nat := 0
  dev : Nat → Option (List (Option V)) := fun _ => none
  devNext : Nat := 0
  tensors : Nat → Option T := fun _ => none
  depth : Nat := 0

def World.set (w : World V) (i : Nat) (t : Option T) : World V :=
  { w with tensors := fun k => if k = i then t else w.tensors k }

def World.setHost (w : World V) (b : Nat) (x : Option (Block V)) : World V :=
  { w with host := fun k => if k = b then x else w.host k }

def World.setDev (w : World V) (d : Nat) (x : Option (List (Option V))) : World V :=
  { w with dev := fun k => if k = d then x else w.dev k }

/-- `delete[]` (`munmap` for mapped memory, see Verif/Model/Ownership.lean for their difference). -/
def freeHost (w : World V) (b : Nat) : Outcome (World V) :=
  match w.host b with
  | none => .undefined
  | some _ => .done (w.setHost b none)

/-- `clReleaseMemObject`. -/
def freeDev (w : World V) (d : Nat) : Outcome (World V) :=
  match w.dev d with
  | none => .undefined
  | some _ => .done (w.setDev d none)

/-- `Tensor::DeleteIfPossible` (src/util/Tensor.cpp:395-433). -/
def deleteIfPossible (w : World V) (t : T) : Outcome (World V × T) :=
  match t.data with
  | none => .done (w, { t with elements := 0, shadow := none })
  | some b =>
    match t.shadow with
    | some _ => .done (w, { t with data := none, elements := 0, shadow := none })
    | none => (freeHost w b).bind fun w =>
      match t.cl with
      | none => .done (w, { t with data := none, elements := 0, gpu := false })
      | some d => (freeDev w d).bind fun w =>
        .done (w, { t with data := none, elements := 0, cl := none, gpu := false })

/-- `Tensor::Resize` without preallocated memory (src/util/Tensor.cpp:132-167), with the `Reshape` it
tries first (174-194). -/
def resize (w : World V) (t : T) (n : Nat) : Outcome (World V × T) :=
  if t.data.isSome ∧ t.elements = n then .done (w, t)
  else (deleteIfPossible w t).bind fun (r : World V × T) =>
    if n = 0 then .done r
    else .done ({ r.1.setHost r.1.hostNext (some ⟨List.replicate n none, true⟩) with
        hostNext := r.1.hostNext + 1 },
      { r.2 with data := some r.1.hostNext, elements := n })

/-- The first half of `MoveToGPU`: a buffer is created if there is none (src/util/Tensor.cpp:442-452).
OpenCL has no buffers of size zero. -/
def ensureBuffer (w : World V) (t : T) : Outcome (World V × T × Nat) :=
  match t.cl with
  | some d => .done (w, t, d)
  | none =>
    if t.elements = 0 then .fatal
    else .done ({ w.setDev w.devNext (some (List.replicate t.elements none)) with devNext := w.devNext + 1 },
      { t with cl := some w.devNext }, w.devNext)

/-- `clEnqueueWriteBuffer` of all elements (src/util/Tensor.cpp:468-474): an error if there are none or
more than the buffer holds. -/
def upload (w : World V) (t : T) (d : Nat) : Outcome (World V) :=
  match w.dev d with
  | none => .undefined
  | some old =>
    if t.elements = 0 ∨ old.length < t.elements then .fatal
    else match t.data with
      | none => .undefined
      | some b => match w.host b with
        | none => .undefined
        | some x =>
          if x.vals.length < t.elements then .undefined
          else .done (w.setDev d (some (x.vals.take t.elements ++ old.drop t.elements)))

/-- `clEnqueueReadBuffer` of all elements (src/util/Tensor.cpp:509-515). -/
def download (w : World V) (t : T) (d : Nat) : Outcome (World V) :=
  match w.dev d with
  | none => .undefined
  | some x =>
    if t.elements = 0 ∨ x.length < t.elements then .fatal
    else match t.data with
      | none => .undefined
      | some b => match w.host b with
        | none => .undefined
        | some old =>
          if old.vals.length < t.elements ∨ old.writable = false then .undefined
          else .done (w.setHost b (some { old with vals := x.take t.elements ++ old.vals.drop t.elements }))

/-- The copy, unless skipped (src/util/Tensor.cpp:455-487). -/
def sendUnless (skip : Bool) (w : World V) (t : T) (d : Nat) : Outcome (World V) :=
  if skip then .done w else upload w t d

/-- The copy back, unless skipped (src/util/Tensor.cpp:498-525). -/
def fetchUnless (skip : Bool) (w : World V) (t : T) : Outcome (World V) :=
  if skip then .done w
  else match t.cl with
    | none => .fatal
    | some d => download w t d

/-- `MoveToGPU` of a tensor that is no shadow (src/util/Tensor.cpp:441-489). -/
def ownerToDevice (w : World V) (i : Nat) (t : T) (skip : Bool) : Outcome (World V) :=
  if t.gpu then .done w
  else (ensureBuffer w t).bind fun (r : World V × T × Nat) =>
    (sendUnless skip r.1 r.2.1 r.2.2).bind fun w =>
      .done (w.set i (some { r.2.1 with gpu := true }))

/-- `MoveToCPU` of a tensor that is no shadow (src/util/Tensor.cpp:497-528). -/
def ownerToHost (w : World V) (i : Nat) (t : T) (skip : Bool) : Outcome (World V) :=
  if t.gpu = false then .done w
  else (fetchUnless skip w t).bind fun w => .done (w.set i (some { t with gpu := false }))

/-- A move of a tensor: shadows hand it on to the tensor they shadow, through `shadow_target_`
(src/util/Tensor.cpp:436-439, 492-495). -/
def delegate (owner : World V → Nat → T → Bool → Outcome (World V)) :
    Nat → World V → Nat → Bool → Outcome (World V)
  | fuel, w, i, skip =>
    match w.tensors i with
    | none => .undefined
    | some t =>
      match t.shadow with
      | none => owner w i t skip
      | some j =>
        match fuel with
        | 0 => .undefined
        | fuel + 1 => delegate owner fuel w j skip

/-- `Tensor::MoveToGPU` (src/util/Tensor.cpp:435-489). -/
def moveToGPU (w : World V) (i : Nat) (skip : Bool) : Outcome (World V) :=
  delegate ownerToDevice w.depth w i skip

/-- `Tensor::MoveToCPU` (src/util/Tensor.cpp:491-529). -/
def moveToCPU (w : World V) (i : Nat) (skip : Bool) : Outcome (World V) :=
  delegate ownerToHost w.depth w i skip

/-- `data_ptr()[k] = v`. -/
def writeHost (w : World V) (t : T) (k : Nat) (v : V) : Outcome (World V) :=
  match t.data with
  | none => .undefined
  | some b => match w.host b with
    | none => .undefined
    | some x => if k < x.vals.length ∧ x.writable then
        .done (w.setHost b (some { x with vals := x.vals.set k (some v) })) else .undefined

/-- `data_ptr()[k]`. -/
def readHost (w : World V) (t : T) (k : Nat) : Outcome (Option V) :=
  match t.data with
  | none => .undefined
  | some b => match w.host b with
    | none => .undefined
    | some x => .ofOption x.vals[k]?

/-- A kernel that stores a value: the kernels get `cl_data_ptr_` of the tensor object itself (e.g.
src/math/TensorMath.cpp:24-42). -/
def writeDevice (w : World V) (t : T) (k : Nat) (v : V) : Outcome (World V) :=
  match t.cl with
  | none => .undefined
  | some d => match w.dev d with
    | none => .undefined
    | some x => if k < x.length then .done (w.setDev d (some (x.set k (some v)))) else .undefined

/-- A kernel that uses a value. -/
def readDevice (w : World V) (t : T) (k : Nat) : Outcome (Option V) :=
  match t.cl with
  | none => .undefined
  | some d => match w.dev d with
    | none => .undefined
    | some x => .ofOption x[k]?

/-- The loop of `Tensor::Clear` over all elements (src/util/Tensor.cpp:98-102). -/
def clearAll (w : World V) (t : T) (v : V) : Outcome (World V) :=
  forO t.elements (fun k w => writeHost w t k v) w

/-- The object `i`. -/
def World.get (w : World V) (i : Nat) : Outcome T := .ofOption (w.tensors i)

/-- A new object. -/
def World.absent (w : World V) (i : Nat) : Outcome Unit :=
  if (w.tensors i).isNone then .done () else .undefined

/-- `memcpy` of all elements between host blocks. -/
def copyAll (w : World V) (src dst : T) : Outcome (World V) :=
  forO src.elements (fun k w =>
    match dst.data with
    | none => .undefined
    | some b => (readHost w src k).bind fun a => match w.host b with
      | none => .undefined
      | some x => if k < x.vals.length ∧ x.writable then
          .done (w.setHost b (some { x with vals := x.vals.set k a })) else .undefined) w

/-- `Tensor::Shadow` (src/util/Tensor.cpp:111-129).  `i` is the tensor, `j` its argument; the fields of
the argument are read after `DeleteIfPossible`. -/
def shadow (w : World V) (i j : Nat) : Outcome (World V) :=
  let w := { w with depth := w.depth + 1 }
  (w.get i).bind fun t => (deleteIfPossible w t).bind fun (r : World V × T) =>
  let w := r.1.set i (some r.2)
  (w.get j).bind fun a =>
  let w := w.set i (some { r.2 with data := a.data, elements := a.elements, shadow := some j })
  (moveToGPU w j false).bind fun w => (moveToCPU w j false).bind fun w =>
  (w.get i).bind fun t => (w.get j).bind fun a => .done (w.set i (some { t with cl := a.cl }))

/-- The move constructor (src/util/Tensor.cpp:65-79). -/
def moveFrom (w : World V) (i j : Nat) : Outcome (World V) :=
  (moveToCPU w j false).bind fun w => (w.get j).bind fun a =>
  (deleteIfPossible w { a with data := none }).bind fun (r : World V × T) =>
  .done ((r.1.set j (some r.2)).set i (some { data := a.data, elements := a.elements }))

/-- One use of the tensors, with the value of a read.  Uses of objects that do not exist are
undefined. -/
def exec (w : World V) : Op V → Outcome (World V × Option V)
  -- src/util/Tensor.cpp:81-84
  | .construct i n => (w.absent i).bind fun _ => (resize w {} n).bind fun (r : World V × T) =>
      .done (r.1.set i (some r.2), none)
  -- src/util/Tensor.cpp:45-63: no move to the host
  | .copy i j => (w.absent i).bind fun _ => (w.get j).bind fun a =>
      (resize w {} a.elements).bind fun (r : World V × T) =>
      (copyAll r.1 a r.2).bind fun w => .done (w.set i (some r.2), none)
  | .move i j => (w.absent i).bind fun _ => (moveFrom w i j).bind fun w => .done (w, none)
  | .resize i n => (w.get i).bind fun t => (resize w t n).bind fun (r : World V × T) =>
      .done (r.1.set i (some r.2), none)
  | .shadow i j => (shadow w i j).bind fun w => .done (w, none)
  | .toDevice i skip => (moveToGPU w i skip).bind fun w => .done (w, none)
  | .toHost i skip => (moveToCPU w i skip).bind fun w => .done (w, none)
  | .writeHost i k v => (w.get i).bind fun t => (writeHost w t k v).bind fun w => .done (w, none)
  | .readHost i k => (w.get i).bind fun t => (readHost w t k).bind fun a => .done (w, a)
  | .writeDevice i k v => (w.get i).bind fun t => (writeDevice w t k v).bind fun w => .done (w, none)
  | .readDevice i k => (w.get i).bind fun t => (readDevice w t k).bind fun a => .done (w, a)
  -- src/util/Tensor.cpp:91-109
  | .clear i v => (moveToCPU w i true).bind fun w => (w.get i).bind fun t =>
      (clearAll w t v).bind fun w => .done (w, none)
  -- `Deserialize` with memory mapping (src/util/Tensor.cpp:267-324): the file must not be empty; the
  -- memory is read-only; the new mapping is not at the address of the old data
  | .map i vs => (moveToCPU w i true).bind fun w => (w.get i).bind fun t =>
      if vs = [] then .done (w, none)
      else (deleteIfPossible w t).bind fun (r : World V × T) =>
        .done (({ r.1.setHost r.1.hostNext (some ⟨vs.map some, false⟩) with hostNext := r.1.hostNext + 1 }).set i
          (some { r.2 with data := some r.1.hostNext, elements := vs.length }), none)
  -- src/util/Tensor.cpp:87-89
  | .destroy i => (w.get i).bind fun t => (deleteIfPossible w t).bind fun (r : World V × T) =>
      .done (r.1.set i none, none)

/-- Histories, with the values of all reads. -/
def run (w : World V) : List (Op V) → Outcome (World V × List (Option V))
  | [] => .done (w, [])
  | op :: ops => (exec w op).bind fun (r : World V × Option V) =>
      (run r.1 ops).bind fun (q : World V × List (Option V)) => .done (q.1, r.2 :: q.2)

end CN24.Device
