import Verif.Base.Loop

/-
Model of `Conv::Tensor` as a value: shape and contents.
Sources: include/cn24/util/Tensor.h, src/util/Tensor.cpp.
Ownership, shadowing, mapping and the OpenCL copy are modelled separately.
-/

namespace CN24

/-- `class Tensor` (include/cn24/util/Tensor.h:43-335), data members `samples_`, `width_`,
`height_`, `maps_`, and the memory behind `data_ptr_`.  Simplifications: `elements_` is not
stored (see `Tensor.elements`), a null `data_ptr_` is the empty buffer, sizes are unbounded
naturals instead of `std::size_t`. -/
structure Tensor (α : Type _) where
  samples : Nat
  width : Nat
  height : Nat
  maps : Nat
  data : List α
  deriving DecidableEq, Repr

namespace Tensor

variable {α : Type _}

/-- `elements_`, computed by `Resize` (src/util/Tensor.cpp:143). -/
def elements (t : Tensor α) : Nat := t.samples * t.maps * t.width * t.height

/-- The state every `Tensor` is in between calls: `Resize` allocates exactly `elements_`
values (src/util/Tensor.cpp:143-166). -/
def WF (t : Tensor α) : Prop := t.data.length = t.elements

instance (t : Tensor α) : Decidable t.WF := inferInstanceAs (Decidable (_ = _))

/-- The class invariant: besides `WF`, a tensor without elements has all dimensions zero,
because `Resize` returns before saving the dimensions (src/util/Tensor.cpp:145-147) and
`DeleteIfPossible` zeroes them (src/util/Tensor.cpp:426-430). -/
def Valid (t : Tensor α) : Prop :=
  t.WF ∧ (t.elements = 0 → t.samples = 0 ∧ t.width = 0 ∧ t.height = 0 ∧ t.maps = 0)

instance (t : Tensor α) : Decidable t.Valid := inferInstanceAs (Decidable (_ ∧ _))

/-- `Tensor::Offset` (include/cn24/util/Tensor.h:128-135). -/
def offset (t : Tensor α) (x y map sample : Nat) : Nat :=
  sample * t.maps * t.width * t.height + map * t.width * t.height + y * t.width + x

/-- `*data_ptr_const(x, y, map, sample)` (include/cn24/util/Tensor.h:254-258): no range check
on the coordinates, undefined outside the buffer. -/
def get (t : Tensor α) (x y map sample : Nat) : Option α := rd t.data (t.offset x y map sample)

/-- `*data_ptr(x, y, map, sample) = v` (include/cn24/util/Tensor.h:245-249). -/
def put (t : Tensor α) (x y map sample : Nat) (v : α) : Option (Tensor α) :=
  (wr t.data (t.offset x y map sample) v).map (fun d => { t with data := d })

/-- `data_ptr_[i] = v` / `operator[]` (include/cn24/util/Tensor.h:263-265). -/
def putElem (t : Tensor α) (i : Nat) (v : α) : Option (Tensor α) :=
  (wr t.data i v).map (fun d => { t with data := d })

/-- Coordinates that exist in the tensor. -/
def InRange (t : Tensor α) (x y map sample : Nat) : Prop :=
  x < t.width ∧ y < t.height ∧ map < t.maps ∧ sample < t.samples

instance (t : Tensor α) (x y m s : Nat) : Decidable (t.InRange x y m s) :=
  inferInstanceAs (Decidable (_ ∧ _))

/-- `Tensor::Clear(value, sample)` (src/util/Tensor.cpp:91-109), `sample = none` for the
default argument `-1`. -/
def clear (t : Tensor α) (value : α) : Option Nat → Option (Tensor α)
  | none => forLoop t.elements (fun e t => t.putElem e value) t
  | some sample =>
    forRange (t.width * t.height * t.maps * sample) (t.width * t.height * t.maps * (sample + 1))
      (fun e t => t.putElem e value) t

/-- `Tensor::Reshape` (src/util/Tensor.cpp:174-194) on a tensor with a non-null buffer.
`none` is the return value `false`. -/
def reshape (t : Tensor α) (samples width height maps : Nat) : Option (Tensor α) :=
  if t.data = [] then none
  else if t.elements ≠ samples * maps * width * height then none
  else some { t with samples, width, height, maps }

/-- `Tensor::Transpose` (src/util/Tensor.cpp:197-217).  The copy `tmp` is the old value.  The
`FATAL` on a failed reshape cannot happen for a non-null buffer and is the outcome `none` too. -/
def transpose (t : Tensor α) : Option (Tensor α) :=
  if t.data = [] then some t
  else
    (reshape t t.samples t.height t.width t.maps).bind fun r =>
      forLoop r.samples (fun s =>
        forLoop r.maps (fun m =>
          forLoop r.width (fun x =>
            forLoop r.height (fun y cur =>
              (t.get y x m s).bind fun v => cur.put x y m s v)))) r

/-- `Tensor::CopyMap` (src/util/Tensor.cpp:344-393).  Result: the returned `bool` and the new
target.  `memcpy` is the element-wise copy loop; source and target are assumed not to be
the same buffer (the C++ takes them by separate references). -/
def copyMap [Zero α] (source : Tensor α) (sourceSample sourceMap : Nat) (target : Tensor α)
    (targetSample targetMap : Nat) : Option (Bool × Tensor α) :=
  if sourceSample ≥ source.samples ∨ targetSample ≥ target.samples then some (false, target)
  else if source.width ≠ target.width ∨ source.height ≠ target.height then
    if target.width < source.width ∨ target.height < source.height then some (false, target)
    else
      (forLoop source.height (fun y t =>
        (forLoop source.width (fun x t =>
          (source.get x y sourceMap sourceSample).bind fun v =>
            t.put x y targetMap targetSample v) t).bind
        (forRange source.width target.width (fun x t =>
          t.put x y targetMap targetSample 0))) target).bind fun t1 =>
      (forRange source.height target.height (fun y t =>
        forLoop target.width (fun x t => t.put x y targetMap targetSample 0) t) t1).map
        fun t2 => (true, t2)
  else
    (forLoop (source.width * source.height) (fun i t =>
      (rd source.data (source.offset 0 0 sourceMap sourceSample + i)).bind fun v =>
        t.putElem (target.offset 0 0 targetMap targetSample + i) v) target).map
      fun t => (true, t)

/-- `Tensor::CopySample` (src/util/Tensor.cpp:323-342). -/
def copySample [Zero α] (source : Tensor α) (sourceSample : Nat) (target : Tensor α)
    (targetSample : Nat) : Option (Bool × Tensor α) :=
  if source.maps ≠ target.maps then some (false, target)
  else if (source.width ≠ target.width ∨ source.height ≠ target.height) ∧
      (target.width < source.width ∨ target.height < source.height) then some (false, target)
  else
    forLoop source.maps (fun map st =>
      (copyMap source sourceSample map st.2 targetSample map).map fun r =>
        (st.1 && r.1, r.2)) (true, target)

/-- The search loop shared by `Tensor::Maximum` and `Tensor::PixelMaximum`: keep the first
index whose value is greater than everything before and than the start value. -/
def argmaxLoop [LT α] [DecidableLT α] (n : Nat) (lowest : α) (value : Nat → Option α) :
    Option (Nat × α) :=
  forLoop n (fun i st => (value i).map fun v => if st.2 < v then (i, v) else st) (0, lowest)

/-- `Tensor::Maximum(sample)` (src/util/Tensor.cpp:535-547); `lowest` is
`std::numeric_limits<datum>::lowest()`. -/
def maximum [LT α] [DecidableLT α] (lowest : α) (t : Tensor α) (sample : Nat) : Option Nat :=
  (argmaxLoop (t.width * t.height * t.maps) lowest
    (fun x => rd t.data (sample * (t.width * t.height * t.maps) + x))).map (·.1)

/-- `Tensor::PixelMaximum(x, y, sample)` (src/util/Tensor.cpp:566-580). -/
def pixelMaximum [LT α] [DecidableLT α] (lowest : α) (t : Tensor α) (x y sample : Nat) :
    Option Nat :=
  (argmaxLoop t.maps lowest (fun c => t.get x y c sample)).map (·.1)

end Tensor
end CN24
