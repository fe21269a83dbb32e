import Verif.Base.Parallel
import Verif.Model.Activations
import Verif.Model.Lrn
import Verif.Model.Pooling
import Verif.Model.StatLayers
import Verif.Model.Dataset

/-!
The bodies of the loops marked `#pragma omp parallel for`, host code, as programs of single memory
accesses.  The sequential models of the same functions are in the other files of this directory.

The buffers of a loop are numbered; different numbers are different memory (the code never passes the
same tensor as input and output of these loops).  Buffers `val` hold data, buffers `idx` hold the
positions the pooling layers keep.  Tensors are passed to the programs only for their dimensions; what
is in them is read from the memory.
-/

namespace CN24.Parallel
open CN24 Tensor
variable {R : Type}

/-- A buffer of a loop. -/
inductive Buf where
  | val (k : Nat)
  | idx (k : Nat)
  deriving DecidableEq

/-- What a buffer holds. -/
@[reducible] def Cell (R : Type) : Buf → Type
  | .val _ => R
  | .idx _ => Nat

/-- The memory with the given buffers. -/
def memOf (vals : List (List R)) (idxs : List (List Nat)) : Mem (Cell R)
  | .val k => vals.getD k []
  | .idx k => idxs.getD k []

/-- Read a data element. -/
def load (k i : Nat) : Prog (Cell R) R := Prog.get (V := Cell R) (.val k) i

/-- Read a position. -/
def loadIdx (k i : Nat) : Prog (Cell R) Nat := Prog.get (V := Cell R) (.idx k) i

/-- Write a data element. -/
def store (k i : Nat) (v : R) : Prog (Cell R) Unit := Prog.put (V := Cell R) (.val k) i v

/-- Write a position. -/
def storeIdx (k i : Nat) (v : Nat) : Prog (Cell R) Unit := Prog.put (V := Cell R) (.idx k) i v

/-- `b[i] = f(b[i])`, a read followed by a write. -/
def modify (k i : Nat) (f : R → R) : Prog (Cell R) Unit :=
  Prog.read (V := Cell R) (.val k) i fun v => store k i (f v)

/-! ### src/math/TensorMath.cpp -/

/-- Iteration `i` of the loop of `GEMM` (src/math/TensorMath.cpp:65-86); buffers C, A, B. -/
def gemmRow [CommRing R] [DecidableEq R] (tA tB : Bool) (N K : Nat) (alpha : R) (A : Tensor R)
    (smA ldA : Nat) (B : Tensor R) (smB ldB : Nat) (beta : R) (C : Tensor R) (smC ldC i : Nat) :
    Prog (Cell R) Unit :=
  Prog.loop' N fun j =>
    (Prog.loop K (fun k sum =>
      (load 1 (A.offset 0 0 0 smA + if tA then k * ldA + i else i * ldA + k)).bind fun a =>
      (load 2 (B.offset 0 0 0 smB + if tB then j * ldB + k else k * ldB + j)).bind fun b =>
      .ret (sum + a * b)) 0).bind fun sum =>
    if beta = 0 then store 0 (C.offset 0 0 0 smC + (ldC * i + j)) (alpha * sum)
    else modify 0 (C.offset 0 0 0 smC + (ldC * i + j)) fun c => beta * c + alpha * sum

/-- Iteration `i` of the loop of `GEMV` (src/math/TensorMath.cpp:138-154); buffers Y, A, X. -/
def gemvRow [CommRing R] [DecidableEq R] (tA : Bool) (N : Nat) (alpha : R) (A : Tensor R)
    (smA ldA : Nat) (X : Tensor R) (smX incX : Nat) (beta : R) (Y : Tensor R) (smY incY i : Nat) :
    Prog (Cell R) Unit :=
  (Prog.loop N (fun j sum =>
    (load 1 (A.offset 0 0 0 smA + if tA then j * ldA + i else i * ldA + j)).bind fun a =>
    (load 2 (X.offset 0 0 0 smX + j * incX)).bind fun x =>
    .ret (sum + x * a)) 0).bind fun sum =>
  if beta = 0 then store 0 (Y.offset 0 0 0 smY + i * incY) (alpha * sum)
  else modify 0 (Y.offset 0 0 0 smY + i * incY) fun y => beta * y + alpha * sum

/-- Iteration `sample` of the loop of `IM2COL` (src/math/TensorMath.cpp:224-251); buffers target,
source. -/
def im2colSample [Zero R] (c : TensorMath.ColShape) (source target : Tensor R) (sample : Nat) :
    Prog (Cell R) Unit :=
  Prog.loop' c.targetMaps fun tm => Prog.loop' c.targetHeight.toNat fun oy =>
    if 0 ≤ c.iy tm oy ∧ c.iy tm oy < c.sourceHeight then
      Prog.loop' c.targetWidth.toNat fun ox =>
        if 0 ≤ c.ix tm ox ∧ c.ix tm ox < c.sourceWidth then
          (load 1 (source.offset 0 0 0 sample +
            c.sourceIndex tm (c.iy tm oy) (c.ix tm ox))).bind fun v =>
          store 0 (target.offset 0 0 0 tm + c.targetIndex sample oy ox) v
        else store 0 (target.offset 0 0 0 tm + c.targetIndex sample oy ox) 0
    else
      Prog.loop' c.targetWidth.toNat fun ox =>
        store 0 (target.offset 0 0 0 tm + c.targetIndex sample oy ox) 0

/-- Iteration `e` of the loop of `ADD` (src/math/TensorMath.cpp:610-617); buffers target, a, b. -/
def addElement [Add R] (e : Nat) : Prog (Cell R) Unit :=
  (load 1 e).bind fun x => (load 2 e).bind fun y => store 0 e (x + y)

/-! ### src/net/ActivationFunctions.cpp -/

/-- Iteration `e` of the forward loops of the activation layers and of the backward loop of the
softmax layer (src/net/ActivationFunctions.cpp:69-76, 161-167, 221-227, 260-263), `f` being the
expression of the layer; buffers target, source. -/
def mapElement (f : R → R) (e : Nat) : Prog (Cell R) Unit :=
  (load 1 e).bind fun v => store 0 e (f v)

/-- Iteration `e` of the backward loops of the activation layers (src/net/ActivationFunctions.cpp:
114-128, 205-215, 232-242); buffers input delta, output delta, and output or input. -/
def map2Element (f : R → R → R) (e : Nat) : Prog (Cell R) Unit :=
  (load 1 e).bind fun d => (load 2 e).bind fun o => store 0 e (f d o)

/-- Iteration `s` of the forward loop of the softmax layer (src/net/ActivationFunctions.cpp:246-256);
buffers output, input. -/
def softmaxSample [Field R] (exp : R → R) (input output : Tensor R) (s : Nat) : Prog (Cell R) Unit :=
  (Prog.loop input.width (fun e sum =>
    (load 1 (input.offset e 0 0 s)).bind fun v => .ret (sum + exp v)) 0).bind fun sum =>
  Prog.loop' input.width fun e =>
    (load 1 (input.offset e 0 0 s)).bind fun v => store 0 (output.offset e 0 0 s) (exp v / sum)

/-! ### Layers that move data -/

/-- `Tensor::CopyMap` (src/util/Tensor.cpp:344-393) from buffer `k` to buffer `l`. -/
def copyMapP [Zero R] (k l : Nat) (source : Tensor R) (sourceSample sourceMap : Nat)
    (target : Tensor R) (targetSample targetMap : Nat) : Prog (Cell R) Unit :=
  if sourceSample ≥ source.samples ∨ targetSample ≥ target.samples then .ret ()
  else if source.width ≠ target.width ∨ source.height ≠ target.height then
    if target.width < source.width ∨ target.height < source.height then .ret ()
    else
      (Prog.loop' source.height fun y =>
        (Prog.loop' source.width fun x =>
          (load k (source.offset x y sourceMap sourceSample)).bind fun v =>
            store l (target.offset x y targetMap targetSample) v).bind fun _ =>
        Prog.loop' (target.width - source.width) fun x =>
          store l (target.offset (source.width + x) y targetMap targetSample) 0).bind fun _ =>
      Prog.loop' (target.height - source.height) fun y => Prog.loop' target.width fun x =>
        store l (target.offset x (source.height + y) targetMap targetSample) 0
  else
    Prog.loop' (source.width * source.height) fun i =>
      (load k (source.offset 0 0 sourceMap sourceSample + i)).bind fun v =>
        store l (target.offset 0 0 targetMap targetSample + i) v

/-- Iteration `s` of `ConcatenationLayer::FeedForward` (src/net/ConcatenationLayer.cpp:99-106);
buffers output, a, b. -/
def concatForwardSample [Zero R] (a b output : Tensor R) (s : Nat) : Prog (Cell R) Unit :=
  (Prog.loop' a.maps fun m => copyMapP 1 0 a s m output s m).bind fun _ =>
  Prog.loop' b.maps fun m => copyMapP 2 0 b s m output s (a.maps + m)

/-- Iteration `s` of `ConcatenationLayer::BackPropagate` (src/net/ConcatenationLayer.cpp:110-117);
buffers delta of a, delta of b, output delta. -/
def concatBackwardSample [Zero R] (outputDelta da db : Tensor R) (s : Nat) : Prog (Cell R) Unit :=
  (Prog.loop' da.maps fun m => copyMapP 2 0 outputDelta s m da s m).bind fun _ =>
  Prog.loop' db.maps fun m => copyMapP 2 1 outputDelta s (da.maps + m) db s m

/-- `std::memcpy` of `n` elements from buffer 1 to buffer 0. -/
def memcpyP (src dst n : Nat) : Prog (Cell R) Unit :=
  Prog.loop' n fun i => (load 1 (src + i)).bind fun v => store 0 (dst + i) v

/-- Iteration `sample` of `ResizeLayer::FeedForward` (src/net/ResizeLayer.cpp:90-102); buffers
output, input. -/
def resizeForwardSample (bx by' : Nat) (input output : Tensor R) (sample : Nat) :
    Prog (Cell R) Unit :=
  Prog.loop' input.maps fun map => Prog.loop' input.height fun y =>
    memcpyP (input.offset 0 y map sample) (output.offset (bx / 2) (y + by' / 2) map sample)
      input.width

/-- Iteration `sample` of `ResizeLayer::BackPropagate` (src/net/ResizeLayer.cpp:114-126); buffers
input delta, output delta. -/
def resizeBackwardSample (bx by' : Nat) (outputDelta inputDelta : Tensor R) (sample : Nat) :
    Prog (Cell R) Unit :=
  Prog.loop' inputDelta.maps fun map => Prog.loop' inputDelta.height fun y =>
    memcpyP (outputDelta.offset (bx / 2) (y + by' / 2) map sample) (inputDelta.offset 0 y map sample)
      inputDelta.width

/-- Iteration `s` of `GradientAccumulationLayer::BackPropagate`
(src/net/GradientAccumulationLayer.cpp:98-106); buffers input delta and the output deltas. -/
def accumulateSample [Add R] (outputs : Nat) (inputDelta : Tensor R) (s : Nat) : Prog (Cell R) Unit :=
  Prog.loop' (inputDelta.width * inputDelta.height * inputDelta.maps) fun e =>
    Prog.loop' outputs fun i =>
      (load (i + 1) (s * (inputDelta.width * inputDelta.height * inputDelta.maps) + e)).bind fun w =>
      modify 0 (s * (inputDelta.width * inputDelta.height * inputDelta.maps) + e) fun v => v + w

/-- Iteration `sample` of `SpatialPriorLayer::FeedForward` (src/net/SpatialPriorLayer.cpp:63-80);
buffers output, input. -/
def spatialForwardSample [Field R] (input output : Tensor R) (sample : Nat) : Prog (Cell R) Unit :=
  (Prog.loop' (input.maps + 2 - 2) fun m => Prog.loop' input.height fun _ =>
    copyMapP 1 0 input sample (2 + m - 2) output sample (2 + m)).bind fun _ =>
  Prog.loop' input.height fun y => Prog.loop' input.width fun x =>
    (store 0 (output.offset x y 0 sample) ((x : R) / (input.width : R))).bind fun _ =>
    store 0 (output.offset x y 1 sample) ((y : R) / (input.height : R))

/-- Iteration `sample` of `SpatialPriorLayer::BackPropagate` (src/net/SpatialPriorLayer.cpp:84-92);
buffers input delta, output delta. -/
def spatialBackwardSample [Zero R] (outputDelta inputDelta : Tensor R) (sample : Nat) :
    Prog (Cell R) Unit :=
  Prog.loop' (inputDelta.maps + 2 - 2) fun m => Prog.loop' inputDelta.height fun _ =>
    copyMapP 1 0 outputDelta sample (2 + m) inputDelta sample (2 + m - 2)

/-! ### src/net/LocalResponseNormalizationLayer.cpp -/

/-- The loop over one dimension of the window (src/net/LocalResponseNormalizationLayer.cpp:89, 90,
109). -/
def overWindowP {β : Type} (size n j : Nat) (f : Nat → β → Prog (Cell R) β) (s : β) :
    Prog (Cell R) β :=
  Prog.loop (min n (j + Lrn.add size + 1) - (j - Lrn.sub size)) (fun i => f (j - Lrn.sub size + i)) s

/-- The loops over the window (src/net/LocalResponseNormalizationLayer.cpp:89-95, 109-113). -/
def overRegionP {β : Type} (c : Lrn.Config R) (input : Tensor R) (x y m : Nat)
    (f : Nat → Nat → Nat → β → Prog (Cell R) β) (s : β) : Prog (Cell R) β :=
  match c.method with
  | .withinChannels => overWindowP c.size input.height y (fun iy => overWindowP c.size input.width x
      (fun ix => f ix iy m)) s
  | .acrossChannels => overWindowP c.size input.maps m (fun im => f x y im) s

/-- Iteration `s` of the forward loop (src/net/LocalResponseNormalizationLayer.cpp:81-124); buffers
region sums, output, input. -/
def lrnForwardSample [Field R] (pow : R → R → R) (c : Lrn.Config R) (input sums output : Tensor R)
    (s : Nat) : Prog (Cell R) Unit :=
  Prog.loop' input.maps fun m => Prog.loop' input.height fun y => Prog.loop' input.height fun x =>
    (overRegionP c input x y m (fun ix iy im (acc : R × Nat) =>
      (load 2 (input.offset ix iy im s)).bind fun v => .ret (acc.1 + v * v, acc.2 + 1))
      (0, 0)).bind fun r =>
    (store 0 (sums.offset x y m s) r.1).bind fun _ =>
    (load 2 (input.offset x y m s)).bind fun v =>
    store 1 (output.offset x y m s) (v / pow (Lrn.base c r.2 r.1) c.beta)

/-- Iteration `s` of the backward loop (src/net/LocalResponseNormalizationLayer.cpp:133-190); buffers
input delta, input, region sums, output delta. -/
def lrnBackwardSample [Field R] (pow : R → R → R) (c : Lrn.Config R)
    (input sums outputDelta delta : Tensor R) (s : Nat) : Prog (Cell R) Unit :=
  Prog.loop' input.maps fun m => Prog.loop' input.height fun y => Prog.loop' input.height fun x =>
    (load 2 (sums.offset x y m s)).bind fun sum =>
    (overRegionP c input x y m (fun _ _ _ (n : Nat) => .ret (n + 1)) 0).bind fun n =>
    (load 1 (input.offset x y m s)).bind fun xi =>
    (load 3 (outputDelta.offset x y m s)).bind fun dxi =>
    (overRegionP c input x y m (fun ix iy im (_ : Unit) =>
      (load 1 (input.offset ix iy im s)).bind fun xj =>
      modify 0 (delta.offset ix iy im s) fun v => v + -Lrn.penalty pow c n sum xi dxi xj)
      ()).bind fun _ =>
    modify 0 (delta.offset x y m s) fun v => v + dxi / pow (Lrn.base c n sum) c.beta

/-! ### Pooling -/

/-- Iteration `sample` of `MaxPoolingLayer::FeedForward` (src/net/MaxPoolingLayer.cpp:141-175);
buffers output, input; positions `maximum_ix_`, `maximum_iy_`. -/
def maxForwardSample [LT R] [DecidableLT R] (lowest : R) (rw rh : Nat)
    (input output : Tensor R) (mx my : Tensor Nat) (sample : Nat) : Prog (Cell R) Unit :=
  Prog.loop' input.maps fun map => Prog.loop' output.width fun ox => Prog.loop' output.height fun oy =>
    (Prog.loop rw (fun i => Prog.loop rh (fun j s =>
      (load 1 (input.offset (ox * rw + i) (oy * rh + j) map sample)).bind fun ival =>
        .ret (Pooling.scanStep (ox * rw + i) (oy * rh + j) ival s))) (lowest, 0, 0)).bind fun r =>
    (storeIdx 0 (mx.offset ox oy map sample) (Pooling.toF32 r.2.1)).bind fun _ =>
    (storeIdx 1 (my.offset ox oy map sample) (Pooling.toF32 r.2.2)).bind fun _ =>
    store 0 (output.offset ox oy map sample) r.1

/-- Iteration `sample` of `MaxPoolingLayer::BackPropagate` (src/net/MaxPoolingLayer.cpp:218-230);
buffers input delta, output delta; positions `maximum_ix_`, `maximum_iy_`. -/
def maxBackwardSample (mx my : Tensor Nat) (outputDelta inputDelta : Tensor R)
    (sample : Nat) : Prog (Cell R) Unit :=
  Prog.loop' inputDelta.maps fun map => Prog.loop' outputDelta.width fun ox =>
    Prog.loop' outputDelta.height fun oy =>
      (loadIdx 0 (mx.offset ox oy map sample)).bind fun ix =>
      (loadIdx 1 (my.offset ox oy map sample)).bind fun iy =>
      (load 1 (outputDelta.offset ox oy map sample)).bind fun v =>
      store 0 (inputDelta.offset ix iy map sample) v

/-- Iteration `sample` of `AdvancedMaxPoolingLayer::FeedForward`
(src/net/AdvancedMaxPoolingLayer.cpp:139-170); buffers output, input; positions `maximum_mask_`. -/
def advForwardSample [LT R] [DecidableLT R] (lowest : R) (rw rh sw sh : Nat)
    (input output : Tensor R) (mask : Tensor Nat) (sample : Nat) : Prog (Cell R) Unit :=
  Prog.loop' input.maps fun map => Prog.loop' output.width fun ox => Prog.loop' output.height fun oy =>
    (Prog.loop rh (fun j => Prog.loop rw (fun i s =>
      (load 1 (input.offset (ox * sw + i) (oy * sh + j) map sample)).bind fun ival =>
        .ret (Pooling.scanStep (ox * sw + i) (oy * sh + j) ival s))) (lowest, 0, 0)).bind fun r =>
    (storeIdx 0 (mask.offset ox oy map sample)
      (Pooling.toF32 (input.width * r.2.2 + r.2.1))).bind fun _ =>
    store 0 (output.offset ox oy map sample) r.1

/-- Iteration `sample` of `AdvancedMaxPoolingLayer::BackPropagate`
(src/net/AdvancedMaxPoolingLayer.cpp:216-242); buffers input delta, output delta; positions
`maximum_mask_`. -/
def advBackwardSample [Zero R] [Add R] (rw rh sw sh : Nat) (mask : Tensor Nat)
    (outputDelta inputDelta : Tensor R) (sample : Nat) : Prog (Cell R) Unit :=
  Prog.loop' inputDelta.maps fun map => Prog.loop' inputDelta.width fun ix =>
    Prog.loop' inputDelta.height fun iy =>
      (Prog.loop (Pooling.advEnd iy sh outputDelta.height - Pooling.advStart iy rh sh) (fun j =>
        Prog.loop (Pooling.advEnd ix sw outputDelta.width - Pooling.advStart ix rw sw) (fun i sum =>
          (loadIdx 0 (mask.offset (Pooling.advStart ix rw sw + i) (Pooling.advStart iy rh sh + j) map
            sample)).bind fun k =>
          if k = Pooling.toF32 (ix + inputDelta.width * iy) then
            (load 1 (outputDelta.offset (Pooling.advStart ix rw sw + i)
              (Pooling.advStart iy rh sh + j) map sample)).bind fun v => .ret (sum + v)
          else .ret sum)) 0).bind fun sum =>
      store 0 (inputDelta.offset ix iy map sample) sum

/-! ### Statistics and data -/

/-- Iteration `t` of `BinaryStatLayer::FeedForward` (src/net/BinaryStatLayer.cpp:236-255); buffers
true positives, false positives, true negatives, false negatives, threshold values, and the three
inputs. -/
def binaryThreshold [Field R] [LinearOrder R] (elements t : Nat) : Prog (Cell R) Unit :=
  (load 4 t).bind fun threshold => Prog.loop' elements fun s =>
    (load 5 s).bind fun a => (load 6 s).bind fun b => (load 7 s).bind fun w =>
    if threshold < a ∧ 0 < b then modify 0 t fun v => v + w
    else if threshold < a ∧ ¬ 0 < b then modify 1 t fun v => v + w
    else if ¬ threshold < a ∧ 0 < b then modify 3 t fun v => v + w
    else modify 2 t fun v => v + w

/-- Iteration `y` of the loops over the rows in `GetTrainingSample` and `GetTestingSample`
(src/util/TensorStreamDataset.cpp:229-235, 275-281); buffers weights, labels, class weights. -/
def weightRow [Field R] [LinearOrder R] (lowest : R) (errorFunction : Nat → Nat → Nat → Nat → R)
    (label : Tensor R) (dataWidth dataHeight sample : Nat) (weight : Tensor R) (y : Nat) :
    Prog (Cell R) Unit :=
  Prog.loop' dataWidth fun x =>
    (Prog.loop label.maps (fun c (st : Nat × R) =>
      (load 1 (label.offset x y c sample)).bind fun v => .ret (if st.2 < v then (c, v) else st))
      (0, lowest)).bind fun best =>
    (load 2 best.1).bind fun classWeight =>
    store 0 (weight.offset x y 0 sample) (errorFunction x y dataWidth dataHeight * classWeight)

end CN24.Parallel
