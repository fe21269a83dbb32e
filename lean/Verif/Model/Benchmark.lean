import Verif.Model.HMaxStats
import Verif.Model.TrainSettings

/-
The tool `runBenchmark` (tools/runBenchmark.cpp).  Left out: the random contents of the image, the texts printed, and the
gradient check at the end (C48).
-/

namespace CN24.Benchmark
open CN24 CN24.Config CN24.Stats
open CN24.HMaxStats (Stat)

/-- Files by name; `none`: cannot be opened. -/
abbrev Files := Str → Option Str

/-- `hardcoded_net` (tools/runBenchmark.cpp:23-59). -/
def builtIn : Str := ("# Sample CNN for LabelMeFacade Dataset \n#anual rfx=34 rfy=34 factorx=4 factory=4 \n \n" ++
  "# Network configuration \n?convolutional kernels=16 size=7x7 \n?maxpooling size=4x4 \n?tanh \n \n" ++
  "?convolutional kernels=12 size=5x5 \n?maxpooling size=2x2 \n?tanh \n \n?convolutional kernels=96 size=5x5 \n?tanh \n \n" ++
  "?fullyconnected neurons=512 \n?tanh \n \n?fullyconnected neurons=192 \n?tanh \n \n?fullyconnected neurons=(o) \n?output \n \n" ++
  "# Learning settings \nl1=0.000 \nl2=0.0008 \nlr=0.02 \ngamma=0.003 \nmomentum=0.9 \nexponent=0.75 \niterations=100 \n" ++
  "sbatchsize=24 \npbatchsize=2 \nmu=1.75 \neta=0.1 \n").toList

/-- `hardcoded_net_ci` (tools/runBenchmark.cpp:61-92). -/
def builtInSmall : Str := ("# Sample CNN for LabelMeFacade Dataset \n#anual rfx=34 rfy=34 factorx=4 factory=4 \n \n" ++
  "# Network configuration \n?convolutional kernels=8 size=7x7 \n?maxpooling size=2x2 \n \n" ++
  "?convolutional kernels=4 size=5x5 \n?tanh \n \n?convolutional kernels=12 size=5x5 \n?tanh \n \n" ++
  "?fullyconnected neurons=64 \n?tanh \n \n?fullyconnected neurons=(o) \n?output \n \n" ++
  "# Learning settings \nl1=0.000 \nl2=0.0008 \nlr=0.02 \ngamma=0.003 \nmomentum=0.9 \nexponent=0.75 \niterations=100 \n" ++
  "sbatchsize=24 \npbatchsize=2 \nmu=1.75 \neta=0.1 \n").toList

/-- The network and the size of the image. -/
structure Plan where
  description : Str
  width : Nat
  height : Nat
  deriving DecidableEq, Repr

/-- The choice by the first argument (tools/runBenchmark.cpp:124-161).  `compare(0,4,"--ci")` looks at the beginning only. -/
def plan (files : Files) (arg : Option Str) : Outcome Plan :=
  match arg with
  | none => .done ⟨builtIn, 512, 512⟩
  | some name =>
    if name.take 4 = "--ci".toList then .done ⟨builtInSmall, 64, 64⟩
    else
      match files name with
      | none => .fatal
      | some text => .done ⟨text, 512, 512⟩

section
variable {D : Type _} [Field D]

/-- The descriptor of the throughput (tools/runBenchmark.cpp:96-111). -/
def fps : Desc (Stat D) D where
  initF := fun _ => ⟨false, 0⟩
  updateF := fun s v => { s with value := s.value + v }
  outputF := fun hard s => { s with value := s.value / (hard.secondsElapsed : D) }

/-- What happens: a call of the collector, or `images` images pass through the network forward or backward. -/
inductive Event (D : Type _) where
  | collector (op : Stats.Op (Stat D) D)
  | forward (images : Nat)
  | backward (images : Nat)

/-- The network and the clock: the statistics that layers register, what they report in each forward pass, and the times at
which recording starts and stops. -/
structure Machine (D : Type _) where
  stats : List (Desc (Stat D) D)
  notes : Nat → List (Nat × D)
  start1 : Int
  stop1 : Int
  start2 : Int
  stop2 : Int

/-- `graph.FeedForward()`, the `k`-th one. -/
def forwardPass (m : Machine D) (images k : Nat) : List (Event D) :=
  .forward images :: (m.notes k).map fun u => .collector (.update u.1 u.2)

/-- The calls from `RegisterSink` to the gradient check (tools/runBenchmark.cpp:113-235); `images` is the number of samples of
the image, `counted` the number passed to `Update`.  The throughput is registered first, so its number is 0. -/
def events (m : Machine D) (images counted : Nat) : List (Event D) :=
  [.collector .registerSink, .collector (.registerStat fps)] ++ m.stats.map (fun d => .collector (.registerStat d)) ++
  [.collector .initialize] ++ forwardPass m images 0 ++ [.backward images] ++
  [.collector (.startRecording m.start1)] ++
  (List.range 30).flatMap (fun p => forwardPass m images (1 + p) ++ [.collector (.update 0 (counted : D))]) ++
  [.collector (.stopRecording m.stop1), .collector .generate, .collector .reset, .collector (.startRecording m.start2)] ++
  (List.range 15).flatMap
    (fun p => forwardPass m images (31 + p) ++ [.backward images, .collector (.update 0 (counted : D))]) ++
  [.collector (.stopRecording m.stop2), .collector .generate, .collector .reset]

/-- The tool (tools/runBenchmark.cpp:94-235).  `initial` are the settings before `InitOptimalSettings`
(include/cn24/net/Trainer.h:32-49), `network` the network made of a description for an image of some number of samples,
width and height.  The image is made before the settings are read (tools/runBenchmark.cpp:166 and 187). -/
def main (conv : Str → D) (initial : TrainSettings.Settings D) (network : Str → Nat → Nat → Nat → Outcome (Machine D))
    (files : Files) (arg : Option Str) : Outcome (List (Event D)) :=
  (plan files arg).bind fun p =>
  let images := initial.count .pbatchsize
  (network p.description images p.width p.height).bind fun m =>
  (TrainSettings.initSettings conv p.description initial).bind fun s =>
  .done (events m images (s.count .pbatchsize))

end
end CN24.Benchmark
