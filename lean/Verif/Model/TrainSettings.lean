import Verif.Model.NetConfig

/-
The settings of the training in a network description:
`ConfigurableFactory::InitOptimalSettings` (src/factory/ConfigurableFactory.cpp:504-535).
-/

namespace CN24.TrainSettings
open CN24 CN24.Config

/-- The members read by `ParseDatumIfPossible`, in the order of the calls
(src/factory/ConfigurableFactory.cpp:515-522). -/
inductive RealKey where
  | l1 | l2 | lr | gamma | momentum | exponent | eta | mu
  deriving DecidableEq, Repr

/-- The members read by `ParseUIntIfPossible` (src/factory/ConfigurableFactory.cpp:523-525). -/
inductive CountKey where
  | iterations | sbatchsize | pbatchsize
  deriving DecidableEq, Repr

/-- The identifiers in the calls. -/
def RealKey.name : RealKey → Str
  | .l1 => "l1".toList
  | .l2 => "l2".toList
  | .lr => "lr".toList
  | .gamma => "gamma".toList
  | .momentum => "momentum".toList
  | .exponent => "exponent".toList
  | .eta => "eta".toList
  | .mu => "mu".toList

def CountKey.name : CountKey → Str
  | .iterations => "iterations".toList
  | .sbatchsize => "sbatchsize".toList
  | .pbatchsize => "pbatchsize".toList

def realKeys : List RealKey := [.l1, .l2, .lr, .gamma, .momentum, .exponent, .eta, .mu]
def countKeys : List CountKey := [.iterations, .sbatchsize, .pbatchsize]

/-- `TrainerSettings` (include/cn24/net/Trainer.h:32-49) without the members that the description does not set. -/
structure Settings (D : Type _) where
  real : RealKey → D
  count : CountKey → Nat
  quickprop : Bool

variable {D : Type _}

def Settings.setReal (s : Settings D) (k : RealKey) (v : D) : Settings D :=
  { s with real := fun j => if j = k then v else s.real j }

def Settings.setCount (s : Settings D) (k : CountKey) (n : Nat) : Settings D :=
  { s with count := fun j => if j = k then n else s.count j }

/-- `ParseDatumIfPossible` for one member (src/util/ConfigParsing.cpp:29-40, 73-77).  The exception of `substr` ends
the program; `conv` is the conversion by `operator>>`; for a text without anything but white space the result is an
uninitialised variable. -/
def readReal (conv : Str → D) (line : Str) (k : RealKey) (s : Settings D) : Outcome (Settings D) :=
  match setting line k.name with
  | none => .fatal
  | some none => .done s
  | some (some t) => if t.all isSpace then .undefined else .done (s.setReal k (conv t))

/-- `ParseUIntIfPossible` for one member (src/util/ConfigParsing.cpp:21-27, 79-83). -/
def readCount (line : Str) (k : CountKey) (s : Settings D) : Outcome (Settings D) :=
  match setting line k.name with
  | none => .fatal
  | some none => .done s
  | some (some t) => (Outcome.ofOption (atoi t)).bind fun i => .done (s.setCount k (toUInt i))

/-- The calls one after the other. -/
def eachKey {K : Type} (f : K → Settings D → Outcome (Settings D)) : List K → Settings D → Outcome (Settings D)
  | [], s => .done s
  | k :: ks, s => (f k s).bind (eachKey f ks)

/-- `optimization` (src/factory/ConfigurableFactory.cpp:527-534). -/
def readMethod (line : Str) (s : Settings D) : Outcome (Settings D) :=
  match setting line "optimization".toList with
  | none => .fatal
  | some none => .done s
  | some (some m) =>
    if "gradient_descent".toList.isPrefixOf m then .done { s with quickprop := false }
    else if "quickprop".toList.isPrefixOf m then .done { s with quickprop := true }
    else .done s

/-- One line (src/factory/ConfigurableFactory.cpp:509-534). -/
def readLine (conv : Str → D) (line : Str) (s : Settings D) : Outcome (Settings D) :=
  if ['#'].isPrefixOf line then .done s
  else
    (eachKey (readReal conv line) realKeys s).bind fun s =>
    (eachKey (readCount line) countKeys s).bind fun s =>
    readMethod line s

def readLines (conv : Str → D) : List Str → Settings D → Outcome (Settings D)
  | [], s => .done s
  | l :: ls, s => (readLine conv l s).bind (readLines conv ls)

/-- `InitOptimalSettings` (src/factory/ConfigurableFactory.cpp:504-535) on the description `text`, `s` being the
members so far. -/
def initSettings (conv : Str → D) (text : Str) (s : Settings D) : Outcome (Settings D) :=
  readLines conv (NetConfig.linesOf text) s

end CN24.TrainSettings
