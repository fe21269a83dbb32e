import Verif.Model.Tensor
import Verif.Base.Outcome
import Mathlib.Algebra.Ring.Defs

/-
Model of `Conv::TensorMath` (src/math/TensorMath.cpp), the host (reference) implementations,
i.e. the code compiled without BUILD_OPENCL, BUILD_CLBLAS and BUILD_BLAS.

Simplifications throughout: `datum` is any type with a zero, an addition and a multiplication (a commutative
ring without rounding in most theorems, single precision numbers in C94), sizes are unbounded
(`int` does not overflow), different tensor arguments are different buffers, and parallel loops
run in sequence (see the property on schedules).
-/

namespace CN24.TensorMath
open CN24

variable {R : Type _} [Zero R] [Add R] [Mul R]

/-- `element += v`. -/
def addElem (t : Tensor R) (i : Nat) (v : R) : Option (Tensor R) :=
  (rd t.data i).bind fun w => t.putElem i (w + v)

/-- `TensorMath::GEMM` (src/math/TensorMath.cpp:17-91), the reference path 58-87. -/
def gemm [DecidableEq R] (isRowMajor tA tB : Bool) (M N K : Nat) (alpha : R) (A : Tensor R)
    (smA ldA : Nat) (B : Tensor R) (smB ldB : Nat) (beta : R) (C : Tensor R) (smC ldC : Nat) :
    Outcome (Tensor R) :=
  if !isRowMajor then .fatal
  else .ofOption <|
    forLoop M (fun i => forLoop N (fun j C =>
      (forLoop K (fun k sum =>
        (rd A.data (A.offset 0 0 0 smA + if tA then k * ldA + i else i * ldA + k)).bind fun a =>
        (rd B.data (B.offset 0 0 0 smB + if tB then j * ldB + k else k * ldB + j)).map fun b =>
          sum + a * b) 0).bind fun sum =>
      if beta = 0 then C.putElem (C.offset 0 0 0 smC + (ldC * i + j)) (alpha * sum)
      else (rd C.data (C.offset 0 0 0 smC + (ldC * i + j))).bind fun c =>
        C.putElem (C.offset 0 0 0 smC + (ldC * i + j)) (beta * c + alpha * sum))) C

/-- `TensorMath::GEMV` (src/math/TensorMath.cpp:93-159), the reference path 130-154. -/
def gemv [DecidableEq R] (isRowMajor tA : Bool) (M N : Nat) (alpha : R) (A : Tensor R)
    (smA ldA : Nat) (X : Tensor R) (smX incX : Nat) (beta : R) (Y : Tensor R) (smY incY : Nat) :
    Outcome (Tensor R) :=
  if !isRowMajor then .fatal
  else .ofOption <|
    forLoop M (fun i Y =>
      (forLoop N (fun j sum =>
        (rd A.data (A.offset 0 0 0 smA + if tA then j * ldA + i else i * ldA + j)).bind fun a =>
        (rd X.data (X.offset 0 0 0 smX + j * incX)).map fun x => sum + x * a) 0).bind fun sum =>
      if beta = 0 then Y.putElem (Y.offset 0 0 0 smY + i * incY) (alpha * sum)
      else (rd Y.data (Y.offset 0 0 0 smY + i * incY)).bind fun y =>
        Y.putElem (Y.offset 0 0 0 smY + i * incY) (beta * y + alpha * sum)) Y

/-- `(2 * pad + source - kernel) / stride + 1` in `int` arithmetic, division truncating
(src/math/TensorMath.cpp:213-214). -/
def outDim (pad source kernel stride : Nat) : Int :=
  Int.tdiv (2 * pad + source - kernel) stride + 1

/-- The integer arguments shared by `IM2COL` and `COL2IM` (src/math/TensorMath.cpp:162, 261). -/
structure ColShape where
  sourceWidth : Nat
  sourceHeight : Nat
  maps : Nat
  samples : Nat
  kernelWidth : Nat
  kernelHeight : Nat
  strideWidth : Nat
  strideHeight : Nat
  padWidth : Nat
  padHeight : Nat
  deriving DecidableEq, Repr

namespace ColShape
variable (c : ColShape)

/-- `target_width` (src/math/TensorMath.cpp:213). -/
def targetWidth : Int := outDim c.padWidth c.sourceWidth c.kernelWidth c.strideWidth
/-- `target_height` (src/math/TensorMath.cpp:214). -/
def targetHeight : Int := outDim c.padHeight c.sourceHeight c.kernelHeight c.strideHeight
/-- `target_maps` (src/math/TensorMath.cpp:215). -/
def targetMaps : Nat := c.kernelWidth * c.kernelHeight * c.maps
/-- `target_size` (src/math/TensorMath.cpp:217). -/
def targetSize : Int := c.samples * c.targetWidth * c.targetHeight * c.targetMaps
/-- `iy` (src/math/TensorMath.cpp:230, 233). -/
def iy (tm oy : Nat) : Int :=
  (oy : Int) * c.strideHeight - c.padHeight + ((tm / c.kernelWidth % c.kernelHeight : Nat) : Int)
/-- `ix` (src/math/TensorMath.cpp:229, 236). -/
def ix (tm ox : Nat) : Int :=
  (ox : Int) * c.strideWidth - c.padWidth + ((tm % c.kernelWidth : Nat) : Int)
/-- `imap` (src/math/TensorMath.cpp:231). -/
def imap (tm : Nat) : Nat := tm / (c.kernelWidth * c.kernelHeight)
/-- `(sample * target_height + oy) * target_width + ox` (src/math/TensorMath.cpp:238). -/
def targetIndex (sample oy ox : Nat) : Nat :=
  (sample * c.targetHeight.toNat + oy) * c.targetWidth.toNat + ox
/-- `(imap * source_height + iy) * source_width + ix` (src/math/TensorMath.cpp:239), for
non-negative `iy`, `ix`. -/
def sourceIndex (tm : Nat) (iy ix : Int) : Nat :=
  (c.imap tm * c.sourceHeight + iy.toNat) * c.sourceWidth + ix.toNat
end ColShape

/-- `TensorMath::IM2COL` (src/math/TensorMath.cpp:162-259), host path 213-252.  A zero stride is a
division by zero. -/
def im2col (c : ColShape) (source target : Tensor R) : Outcome (Tensor R) :=
  if c.strideWidth = 0 ∨ c.strideHeight = 0 then .undefined
  else if c.targetSize ≠ ((target.samples * target.width * target.height * target.maps : Nat) : Int) then
    .fatal
  else .ofOption <|
    forLoop c.samples (fun sample => forLoop c.targetMaps (fun tm =>
      forLoop c.targetHeight.toNat (fun oy =>
        if 0 ≤ c.iy tm oy ∧ c.iy tm oy < c.sourceHeight then
          forLoop c.targetWidth.toNat (fun ox target =>
            if 0 ≤ c.ix tm ox ∧ c.ix tm ox < c.sourceWidth then
              (rd source.data (source.offset 0 0 0 sample +
                c.sourceIndex tm (c.iy tm oy) (c.ix tm ox))).bind fun v =>
              target.putElem (target.offset 0 0 0 tm + c.targetIndex sample oy ox) v
            else target.putElem (target.offset 0 0 0 tm + c.targetIndex sample oy ox) 0)
        else
          forLoop c.targetWidth.toNat (fun ox target =>
            target.putElem (target.offset 0 0 0 tm + c.targetIndex sample oy ox) 0)))) target

/-- `TensorMath::SETSAMPLE` (src/math/TensorMath.cpp:351-391), host path 382-385; `smA = none` is
`-1`. -/
def setSample (A : Tensor R) (smA : Option Nat) (value : R) : Option (Tensor R) :=
  let start := match smA with
    | none => 0
    | some s => A.offset 0 0 0 s
  let stop := match smA with
    | none => A.offset 0 0 0 A.samples
    | some s => A.offset 0 0 0 (s + 1)
  forRange start stop (fun i A => A.putElem i value) A

/-- `TensorMath::COL2IM` (src/math/TensorMath.cpp:261-349), host path 311-343.  The test in line
335 is `ix >= 0 && iy < source_width`, kept as it is. -/
def col2im (c : ColShape) (source target : Tensor R) : Outcome (Tensor R) :=
  (Outcome.ofOption (setSample source none 0)).bind fun source =>
  if c.strideWidth = 0 ∨ c.strideHeight = 0 then .undefined
  else if c.targetSize ≠ ((target.samples * target.width * target.height * target.maps : Nat) : Int) then
    .fatal
  else .ofOption <|
    forLoop c.samples (fun sample => forLoop c.targetMaps (fun tm =>
      forLoop c.targetHeight.toNat (fun oy source =>
        if 0 ≤ c.iy tm oy ∧ c.iy tm oy < c.sourceHeight then
          forLoop c.targetWidth.toNat (fun ox source =>
            if 0 ≤ c.ix tm ox ∧ c.iy tm oy < c.sourceWidth then
              (rd target.data (target.offset 0 0 0 tm + c.targetIndex sample oy ox)).bind fun v =>
              addElem source (source.offset 0 0 0 sample +
                c.sourceIndex tm (c.iy tm oy) (c.ix tm ox)) v
            else some source) source
        else some source))) source

/-- `TensorMath::SMS` (src/math/TensorMath.cpp:393-450), host path 433-443; `memcpy` is the
element-wise copy. -/
def sms (source target : Tensor R) : Option (Tensor R) :=
  forLoop target.samples (fun sample => forLoop target.maps (fun map =>
    forLoop (target.width * target.height) (fun i tgt =>
      (rd source.data (source.offset 0 0 sample map + i)).bind fun v =>
        tgt.putElem (tgt.offset 0 0 map sample + i) v))) target

/-- `TensorMath::DOWN` (src/math/TensorMath.cpp:452-523), host path 494-516. -/
def down (source target : Tensor R) (regionWidth regionHeight : Nat) (factor : R) :
    Option (Tensor R) :=
  forLoop target.samples (fun sample => forLoop target.maps (fun map =>
    forLoop target.height (fun ty => forLoop target.width (fun tx tgt =>
      (forLoop regionHeight (fun ry => forLoop regionWidth (fun rx sum =>
        (source.get (regionWidth * tx + rx) (regionHeight * ty + ry) map sample).map fun v =>
          sum + v)) 0).bind fun sum =>
      tgt.put tx ty map sample (sum * factor))))) target

/-- `TensorMath::UP` (src/math/TensorMath.cpp:525-594), host path 567-588. -/
def up (source target : Tensor R) (regionWidth regionHeight : Nat) (factor : R) :
    Option (Tensor R) :=
  forLoop source.samples (fun sample => forLoop source.maps (fun map =>
    forLoop source.height (fun y => forLoop source.width (fun x tgt =>
      (source.get x y map sample).bind fun sum =>
      forLoop regionHeight (fun ry => forLoop regionWidth (fun rx tgt =>
        tgt.put (regionWidth * x + rx) (regionHeight * y + ry) map sample (sum * factor))) tgt)))) target

/-- `TensorMath::ADD` (src/math/TensorMath.cpp:596-620). -/
def add (a b target : Tensor R) : Outcome (Tensor R) :=
  if a.samples ≠ b.samples ∨ b.samples ≠ target.samples ∨ a.elements ≠ b.elements ∨
      b.elements ≠ target.elements then .fatal
  else .ofOption <| forLoop a.elements (fun e t =>
    (rd a.data e).bind fun x => (rd b.data e).bind fun y => t.putElem e (x + y)) target

end CN24.TensorMath
