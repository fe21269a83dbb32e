import Verif.Model.Parallel
import Verif.Model.TensorMath

/-!
The OpenCL kernels (kernels/*.cl) that the host code enqueues, and the launches: which work items are
started with which arguments.

A work item is a program of single memory accesses, as the iterations of the parallel loops of
Verif/Model/Parallel.lean; the work items of one launch run at the same time, in any order.  Buffers are
numbered, the written ones first; `val` buffers hold floats, `idx` buffers hold `uint`s.

Simplifications: `float` arithmetic is exact; `uint` and `int` do not overflow (buffers of less than 2^31
elements); the launch itself succeeds (an error code of the OpenCL library is FATAL in the code).  The
kernels crossCorrelation.cl, biasedConvolution.cl, fullConvolution.cl, foldWeights.cl, biasGradient.cl,
biasedMatrixVector.cl and matrixMatrix.cl are built but never enqueued and are not modelled.
-/

namespace CN24.DeviceKernels
open CN24 CN24.Parallel
variable {R : Type}

/-- The work items of one `clEnqueueNDRangeKernel`. -/
structure Launch (R : Type) where
  items : Nat
  item : Nat → Prog (Cell R) Unit

/-- A launch with the three-dimensional global work size `{n0, n1, n2}`: work item `i` has the global
ids `get_global_id(0)`, `get_global_id(1)`, `get_global_id(2)`. -/
def Launch.grid (n0 n1 n2 : Nat) (k : Nat → Nat → Nat → Prog (Cell R) Unit) : Launch R :=
  ⟨n0 * n1 * n2, fun i => k (i % n0) (i / n0 % n1) (i / (n0 * n1))⟩

/-- Whatever the order in which the work items advance, they end, do not race, stay in the buffers and
turn the memory `m` into `m'`. -/
def Launch.Gives (l : Launch R) (m m' : Mem (Cell R)) : Prop :=
  EverySchedule (fun i : Fin l.items => l.item i) m m'

/-! ### src/math/TensorMath.cpp -/

/-- `SET_VALUE` (kernels/setValue.cl:7-12). -/
def setValue (value : R) (offset element : Nat) : Prog (Cell R) Unit := store 0 (element + offset) value

/-- The launch of `TensorMath::SETSAMPLE` (src/math/TensorMath.cpp:353-379); `none` is `-1`.  The
global work size for one sample is `width * height * samples`, as in the code. -/
def setSample (A : Tensor R) (smA : Option Nat) (value : R) : Launch R :=
  match smA with
  | none => ⟨A.elements, setValue value 0⟩
  | some s => ⟨A.width * A.height * A.samples, setValue value (s * (A.width * A.height * A.maps))⟩

/-- `SMS` (kernels/sms.cl:7-19); buffers Y, X. -/
def smsItem (width height maps samples e : Nat) : Prog (Cell R) Unit :=
  let skid := e / (width * height)
  let sample := skid / maps
  let map := skid % maps
  (load 1 (map * width * height * samples + sample * width * height + e % (width * height))).bind fun v =>
  store 0 e v

/-- The launch of `TensorMath::SMS` (src/math/TensorMath.cpp:395-430). -/
def sms (target : Tensor R) : Launch R :=
  ⟨target.elements, smsItem target.width target.height target.maps target.samples⟩

/-- `DOWN` (kernels/scaling.cl:7-40); buffers Y, X. -/
def downItem [Zero R] [Add R] [Mul R] (targetWidth targetHeight sourceWidth sourceHeight rw rh : Nat)
    (factor : R) (x y skid : Nat) : Prog (Cell R) Unit :=
  (Prog.loop rh (fun ry => Prog.loop rw fun rx sum =>
    (load 1 (sourceWidth * sourceHeight * skid + sourceWidth * (y * rh + ry) + x * rw + rx)).bind fun v =>
    .ret (sum + v)) 0).bind fun sum =>
  store 0 (targetWidth * targetHeight * skid + targetWidth * y + x) (sum * factor)

/-- The launch of `TensorMath::DOWN` (src/math/TensorMath.cpp:454-491). -/
def down [Zero R] [Add R] [Mul R] (source target : Tensor R) (rw rh : Nat) (factor : R) : Launch R :=
  .grid target.width target.height (target.maps * target.samples)
    (downItem target.width target.height source.width source.height rw rh factor)

/-- `UP` (kernels/scaling.cl:43-69); buffers Y, X. -/
def upItem [Mul R] (targetWidth targetHeight sourceWidth sourceHeight rw rh : Nat)
    (factor : R) (x y skid : Nat) : Prog (Cell R) Unit :=
  (load 1 (sourceWidth * sourceHeight * skid + sourceWidth * (y / rh) + x / rw)).bind fun v =>
  store 0 (targetWidth * targetHeight * skid + targetWidth * y + x) (v * factor)

/-- The launch of `TensorMath::UP` (src/math/TensorMath.cpp:527-565). -/
def up [Mul R] (source target : Tensor R) (rw rh : Nat) (factor : R) : Launch R :=
  .grid target.width target.height (target.maps * target.samples)
    (upItem target.width target.height source.width source.height rw rh factor)

/-- `IM2COL` (kernels/im2col.cl:7-38); buffers Y, X.  `iy` and `ix` are those of the host code. -/
def im2colItem [Zero R] (c : TensorMath.ColShape) (oelement tm sample : Nat) : Prog (Cell R) Unit :=
  let tw := c.targetWidth.toNat
  let th := c.targetHeight.toNat
  let ox := oelement % tw
  let oy := oelement / tw
  let kx := tm % c.kernelWidth
  let ky := tm / c.kernelWidth % c.kernelHeight
  let imap := tm / (c.kernelWidth * c.kernelHeight)
  let iy : Int := (oy : Int) * c.strideHeight - c.padHeight + ky
  let ix : Int := (ox : Int) * c.strideWidth - c.padWidth + kx
  if 0 ≤ iy ∧ iy < c.sourceHeight ∧ 0 ≤ ix ∧ ix < c.sourceWidth ∧ imap < c.maps ∧ sample < c.samples then
    (load 1 (sample * c.maps * c.sourceWidth * c.sourceHeight +
      (imap * c.sourceHeight + iy.toNat) * c.sourceWidth + ix.toNat)).bind fun v =>
    store 0 (tm * c.samples * tw * th + (sample * th + oy) * tw + ox) v
  else store 0 (tm * c.samples * tw * th + (sample * th + oy) * tw + ox) 0

/-- The launch of `TensorMath::IM2COL` (src/math/TensorMath.cpp:164-207).  The size of the target is not
looked at. -/
def im2col [Zero R] (c : TensorMath.ColShape) : Launch R :=
  .grid (c.targetWidth.toNat * c.targetHeight.toNat) c.targetMaps c.samples (im2colItem c)

/-- `COL2IM` (kernels/im2col.cl:40-74); buffers X, Y.  The divisions and remainders truncate. -/
def col2imItem [Zero R] [Add R] (c : TensorMath.ColShape) (oelement map sample : Nat) :
    Prog (Cell R) Unit :=
  let tw := c.targetWidth.toNat
  let th := c.targetHeight.toNat
  let iy := oelement / c.sourceWidth
  let ix := oelement % c.sourceWidth
  (Prog.loop c.kernelHeight (fun ky sum =>
    let dy : Int := (c.padHeight : Int) + iy - ky
    let oy := dy.tdiv c.strideHeight
    if 0 ≤ oy ∧ oy < th ∧ dy.tmod c.strideHeight = 0 then
      Prog.loop c.kernelWidth (fun kx sum =>
        let dx : Int := (c.padWidth : Int) + ix - kx
        let ox := dx.tdiv c.strideWidth
        if 0 ≤ ox ∧ ox < tw ∧ dx.tmod c.strideWidth = 0 then
          let tm := c.kernelWidth * c.kernelHeight * map + c.kernelWidth * ky + kx
          (load 1 (tm * c.samples * tw * th + (sample * th + oy.toNat) * tw + ox.toNat)).bind fun v =>
          .ret (sum + v)
        else .ret sum) sum
    else .ret sum) 0).bind fun sum =>
  store 0 (sample * c.maps * c.sourceWidth * c.sourceHeight + map * c.sourceWidth * c.sourceHeight +
    oelement) sum

/-- The launch of `TensorMath::COL2IM` (src/math/TensorMath.cpp:263-306). -/
def col2im [Zero R] [Add R] (c : TensorMath.ColShape) : Launch R :=
  .grid (c.sourceWidth * c.sourceHeight) c.maps c.samples (col2imItem c)

/-! ### src/net/ActivationFunctions.cpp -/

/-- `NL_TANH_FWD` and `NL_SIGM_FWD` (kernels/nonLinearFunctions.cl:21-27, 39-45) for all elements of the
input (src/net/ActivationFunctions.cpp:40-63, 132-155); buffers Y, X. -/
def activationForward (f : R → R) (input : Tensor R) : Launch R :=
  ⟨input.elements, fun e => (load 1 e).bind fun x => store 0 e (f x)⟩

/-- `NL_TANH_BWD` and `NL_SIGM_BWD` (kernels/nonLinearFunctions.cl:28-37, 47-56;
src/net/ActivationFunctions.cpp:80-108, 172-200); buffers dX, Y, dY. -/
def activationBackward (f : R → R → R) (input : Tensor R) : Launch R :=
  ⟨input.elements, fun e => (load 1 e).bind fun y => (load 2 e).bind fun dy => store 0 e (f y dy)⟩

/-! ### src/net/MaxPoolingLayer.cpp -/

/-- `MAXIMUM_POOLING_FWD` (kernels/maximumPooling.cl:23-71); buffers Y, M, X.  `lowest` is `-FLT_MAX`. -/
def maxForwardItem [LT R] [DecidableLT R] [Zero R] [One R] (lowest : R)
    (inputWidth inputHeight outputWidth outputHeight rw rh : Nat) (ox oy skid : Nat) :
    Prog (Cell R) Unit :=
  (Prog.loop rh (fun y => Prog.loop rw fun x st =>
    (store 1 (inputWidth * inputHeight * skid + inputWidth * (oy * rh + y) + ox * rw + x) 0).bind fun _ =>
    (load 2 (inputWidth * inputHeight * skid + inputWidth * (oy * rh + y) + ox * rw + x)).bind fun v =>
    .ret (Pooling.scanStep x y v st)) (lowest, 0, 0)).bind fun st =>
  (store 1 (inputWidth * inputHeight * skid + inputWidth * (oy * rh + st.2.2) + ox * rw + st.2.1) 1).bind
    fun _ =>
  store 0 (outputWidth * outputHeight * skid + outputWidth * oy + ox) st.1

/-- The launch of `MaxPoolingLayer::FeedForward` (src/net/MaxPoolingLayer.cpp:104-137). -/
def maxForward [LT R] [DecidableLT R] [Zero R] [One R] (lowest : R) (rw rh : Nat)
    (input output : Tensor R) : Launch R :=
  .grid output.width output.height (input.maps * input.samples)
    (maxForwardItem lowest input.width input.height output.width output.height rw rh)

/-- `MAXIMUM_POOLING_BWD` (kernels/maximumPooling.cl:79-110); buffers X, M, Y. -/
def maxBackwardItem [Mul R] (inputWidth inputHeight outputWidth outputHeight rw rh : Nat)
    (ix iy skid : Nat) : Prog (Cell R) Unit :=
  (load 1 (inputWidth * inputHeight * skid + inputWidth * iy + ix)).bind fun m =>
  (load 2 (outputWidth * outputHeight * skid + outputWidth * (iy / rh) + ix / rw)).bind fun v =>
  store 0 (inputWidth * inputHeight * skid + inputWidth * iy + ix) (m * v)

/-- The launch of `MaxPoolingLayer::BackPropagate` (src/net/MaxPoolingLayer.cpp:179-212). -/
def maxBackward [Mul R] (rw rh : Nat) (inputDelta outputDelta : Tensor R) : Launch R :=
  .grid inputDelta.width inputDelta.height (inputDelta.maps * inputDelta.samples)
    (maxBackwardItem inputDelta.width inputDelta.height outputDelta.width outputDelta.height rw rh)

/-! ### src/net/AdvancedMaxPoolingLayer.cpp -/

/-- `AMAXIMUM_POOLING_FWD` (kernels/advmaximumPooling.cl:23-69); buffers Y, X and the `uint` buffer M. -/
def advForwardItem [LT R] [DecidableLT R] (lowest : R)
    (inputWidth inputHeight outputWidth outputHeight rw rh sw sh : Nat) (ox oy skid : Nat) :
    Prog (Cell R) Unit :=
  (Prog.loop rh (fun y => Prog.loop rw fun x st =>
    (load 1 (inputWidth * inputHeight * skid + inputWidth * (oy * sh + y) + ox * sw + x)).bind fun v =>
    .ret (Pooling.scanStep x y v st)) (lowest, 0, 0)).bind fun st =>
  (store 0 (outputWidth * outputHeight * skid + outputWidth * oy + ox) st.1).bind fun _ =>
  storeIdx 0 (outputWidth * outputHeight * skid + outputWidth * oy + ox)
    ((oy * sh + st.2.2) * inputWidth + (ox * sw + st.2.1))

/-- The launch of `AdvancedMaxPoolingLayer::FeedForward` (src/net/AdvancedMaxPoolingLayer.cpp:100-135). -/
def advForward [LT R] [DecidableLT R] (lowest : R) (rw rh sw sh : Nat) (input output : Tensor R) :
    Launch R :=
  .grid output.width output.height (input.maps * input.samples)
    (advForwardItem lowest input.width input.height output.width output.height rw rh sw sh)

/-- `AMAXIMUM_POOLING_BWD` (kernels/advmaximumPooling.cl:77-129); buffers X, Y and the `uint` buffer M. -/
def advBackwardItem [Zero R] [Add R]
    (inputWidth inputHeight outputWidth outputHeight rw rh sw sh : Nat) (ix iy skid : Nat) :
    Prog (Cell R) Unit :=
  let oxstart := if ix < rw then 0 else (ix - rw) / sw + 1
  let oxend := min (ix / sw + 1) outputWidth
  let oystart := if iy < rh then 0 else (iy - rh) / sh + 1
  let oyend := min (iy / sh + 1) outputHeight
  (Prog.loop (oyend - oystart) (fun j => Prog.loop (oxend - oxstart) fun i sum =>
    (loadIdx 0 (outputWidth * outputHeight * skid + outputWidth * (oystart + j) + (oxstart + i))).bind
      fun k =>
    if k = iy * inputWidth + ix then
      (load 1 (outputWidth * outputHeight * skid + outputWidth * (oystart + j) + (oxstart + i))).bind
        fun v => .ret (sum + v)
    else .ret sum) 0).bind fun sum =>
  store 0 (inputWidth * inputHeight * skid + inputWidth * iy + ix) sum

/-- The launch of `AdvancedMaxPoolingLayer::BackPropagate`
(src/net/AdvancedMaxPoolingLayer.cpp:174-209). -/
def advBackward [Zero R] [Add R] (rw rh sw sh : Nat) (inputDelta outputDelta : Tensor R) : Launch R :=
  .grid inputDelta.width inputDelta.height (inputDelta.maps * inputDelta.samples)
    (advBackwardItem inputDelta.width inputDelta.height outputDelta.width outputDelta.height rw rh sw sh)

end CN24.DeviceKernels
