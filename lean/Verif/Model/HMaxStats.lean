import Verif.Model.Stats
import Mathlib.Algebra.Field.Defs

/-
The statistics of the sparsity layer `HMaxActivationFunction` (src/net/HMaxActivationFunction.cpp:17-65, 116-121).

The two descriptors are members of the layer that registers them, so the collector keeps pointers into a layer.  Calling
through a descriptor of a layer that was destroyed is undefined.  The identifiers are static; RegisterStat returns an unsigned
number, which is kept in an `int` (fewer than 2^31 statistics).  `double` is a field.
-/

namespace CN24.HMaxStats
open CN24 CN24.Stats

/-- `Stat` (include/cn24/util/StatAggregator.h:48-51); a new one is ⟨false, 0⟩. -/
structure Stat (D : Type _) where
  isNull : Bool
  value : D
  deriving DecidableEq, Repr

section
variable {D : Type _} [Field D]

/-- The descriptors `desc_a` and `desc_b` (src/net/HMaxActivationFunction.cpp:26-53), which are alike. -/
def desc : Desc (Stat D) D where
  initF := fun _ => ⟨true, 0⟩
  updateF := fun s v => ⟨false, s.value + v⟩
  outputF := fun hard s => if hard.iterations > 0 then ⟨false, s.value / (hard.iterations : D)⟩ else ⟨true, 0⟩

/-- The collector, the layer that holds each registered descriptor (`none`: never destroyed), which layers are alive, and
`stat_id_a`, `stat_id_b` (src/net/HMaxActivationFunction.cpp:17-18). -/
structure World (D : Type _) where
  agg : Agg (Stat D) D := {}
  owners : List (Option Nat) := []
  alive : List Bool := []
  idA : Int := -1
  idB : Int := -1

/-- What happens: a layer is constructed from numbers (the network configuration, src/factory/ConfigurableFactory.cpp:352) or
from a configuration text (src/net/LayerFactory.cpp:97), destroyed, or run forward with its two parameters; or the
collector is called. -/
inductive Op (D : Type _) where
  | construct (numbers : Bool)
  | destroy (layer : Nat)
  | forward (layer : Nat) (a b : D)
  | collector (op : Stats.Op (Stat D) D)

/-- Conversion of an `int` to `unsigned int`. -/
def index (i : Int) : Nat := (i % 2 ^ 32).toNat

/-- Whether descriptor `k` can still be used. -/
def World.live (w : World D) (k : Nat) : Bool :=
  match w.owners[k]? with
  | some (some l) => w.alive[l]? == some true
  | _ => true

def World.allLive (w : World D) : Bool := (List.range w.owners.length).all w.live

/-- Whether a call of the collector uses only descriptors that exist (src/util/StatAggregator.cpp:28-140: `Initialize` and
`Reset` call the `init_function` of all of them, `Generate` and `Snapshot` the `output_function`, `Update` the
`update_function` of one). -/
def World.safe (w : World D) : Stats.Op (Stat D) D → Bool
  | .initialize => w.agg.phase != .init || w.allLive
  | .update id _ => w.agg.phase != .recording || w.live id
  | .generate => w.allLive
  | .reset => w.agg.phase != .stopped || w.allLive
  | .snapshot _ _ => w.agg.phase != .recording || w.allLive
  | _ => true

/-- A call of the collector. -/
def World.call (w : World D) (op : Stats.Op (Stat D) D) : Option (World D) :=
  if w.safe op then
    (Stats.exec ⟨false, 0⟩ w.agg op).map fun a =>
      { w with
        agg := a
        owners := match op with
          | .registerStat _ => w.owners ++ [none]
          | _ => w.owners }
  else none

/-- The constructor with two numbers (src/net/HMaxActivationFunction.cpp:20-57): only the first layer registers. -/
def World.constructNumbers (w : World D) : World D :=
  let l := w.alive.length
  let w := { w with alive := w.alive ++ [true] }
  if w.idA ≥ 0 then w
  else
    let (agg, i) := w.agg.registerStat desc
    let (agg, j) := agg.registerStat desc
    { w with agg := agg, owners := w.owners ++ [some l, some l], idA := i, idB := j }

/-- One step; `FeedForward` reports the parameters (src/net/HMaxActivationFunction.cpp:116-121). -/
def exec (w : World D) : Op D → Option (World D)
  | .construct true => some (w.constructNumbers)
  | .construct false => some { w with alive := w.alive ++ [true] }
  | .destroy l => if w.alive[l]? = some true then some { w with alive := w.alive.set l false } else none
  | .forward l a b =>
    if w.alive[l]? = some true then
      (w.call (.update (index w.idA) a)).bind fun w => w.call (.update (index w.idB) b)
    else none
  | .collector op => w.call op

/-- A history. -/
def run (ops : List (Op D)) : Option (World D) := ops.foldlM exec {}
end

end CN24.HMaxStats
