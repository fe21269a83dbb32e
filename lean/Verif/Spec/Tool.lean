import Verif.Spec.Config

/-
The commands of the training tool as its help text describes them (tools/trainNetwork.cpp:484-507), independent of the
code that reads them.
-/

namespace CN24.Tool
open CN24.Config

/-- What a command asks for. -/
inductive Action where
  | quit
  | train (epochs : Nat) (view snapshots : Bool)
  | test (view : Bool)
  | load (file : Str) (lastLayer : Nat)
  | save (file : Str)
  | experiment (name : Str)
  | setEpoch (epoch : Nat)
  | reset
  | help
  | graph (file : Str) (testing : Bool)
  | weightStats (node : Str)
  | dataStats (node : Str)
  | trainingStats (on : Bool)
  /-- A message and nothing else. -/
  | message
  deriving DecidableEq, Repr

/-- The options of `train`, as `key=value`. -/
inductive TrainOption where
  | epochs (n : Nat)
  | noSnapshots (n : Nat)
  | view (n : Nat)
  deriving DecidableEq, Repr

/-- A documented command. -/
inductive Said where
  | quit (short : Bool)
  | train (options : List TrainOption)
  | test
  | setEpoch (epoch : Nat)
  | experiment (name : Str)
  | reset
  | load (file : Str) (lastLayer : Option Nat)
  | loadUpTo (lastLayer : Nat) (file : Str)
  | graph (file : Str) (testing : Bool)
  | save (file : Str)
  | trainingStats (on : Bool)
  | help
  deriving DecidableEq, Repr

/-- Decimal digits. -/
def decimal (n : Nat) : Str := Nat.toDigits 10 n

def TrainOption.key : TrainOption → Str
  | .epochs _ => "epochs".toList
  | .noSnapshots _ => "no_snapshots".toList
  | .view _ => "view".toList

def TrainOption.number : TrainOption → Nat
  | .epochs n => n
  | .noSnapshots n => n
  | .view n => n

/-- The words of a command. -/
def Said.words : Said → List Str
  | .quit true => ["q".toList]
  | .quit false => ["quit".toList]
  | .train os => "train".toList :: os.map fun o => pairText (o.key, decimal o.number)
  | .test => ["test".toList]
  | .setEpoch n => ["set".toList, pairText ("epoch".toList, decimal n)]
  | .experiment name => ["set".toList, "experiment".toList, pairText ("name".toList, name)]
  | .reset => ["reset".toList]
  | .load f none => ["load".toList, pairText ("file".toList, f)]
  | .load f (some n) => ["load".toList, pairText ("file".toList, f), pairText ("last_layer".toList, decimal n)]
  | .loadUpTo n f => ["load".toList, pairText ("last_layer".toList, decimal n), pairText ("file".toList, f)]
  | .graph f t => ["graph".toList, pairText ("file".toList, f), if t then "test".toList else "train".toList]
  | .save f => ["save".toList, pairText ("file".toList, f)]
  | .trainingStats on => ["tstat".toList, pairText ("enable".toList, if on then ['1'] else ['0'])]
  | .help => ["help".toList]

/-- Its text. -/
def Said.text (s : Said) : Str := joinSp s.words

/-- The first number given for a key. -/
def firstOption (key : Str) (default : Nat) : List TrainOption → Nat
  | [] => default
  | o :: os => if o.key = key then o.number else firstOption key default os

/-- What it asks for, by the help text. -/
def Said.action : Said → Action
  | .quit _ => .quit
  | .train os => .train (firstOption "epochs".toList 1 os) (decide (firstOption "view".toList 0 os = 1))
      (decide (firstOption "no_snapshots".toList 0 os ≠ 1))
  | .test => .test false
  | .setEpoch n => .setEpoch n
  | .experiment name => .experiment name
  | .reset => .reset
  | .load f n => .load f (n.getD 0)
  | .loadUpTo n f => .load f n
  | .graph f t => .graph f t
  | .save f => .save f
  | .trainingStats on => .trainingStats on
  | .help => .help

/-- A name that can be given: one word, and not empty. -/
def NameOk (s : Str) : Prop := s ≠ [] ∧ ' ' ∉ s ∧ '\n' ∉ s

/-- Numbers below 2^31 and proper names. -/
def Said.Ok : Said → Prop
  | .train os => ∀ o ∈ os, o.number < 2147483648
  | .setEpoch n => n < 2147483648
  | .experiment name => NameOk name
  | .load f n => NameOk f ∧ ∀ k, n = some k → k < 2147483648
  | .loadUpTo n f => NameOk f ∧ n < 2147483648
  | .graph f _ => NameOk f
  | .save f => NameOk f
  | _ => True

/-- Names that the tool does not mistake for something else. -/
def Said.Clear : Said → Prop
  | .load f _ => ¬ "last_layer=".toList <:+: f
  | .graph f false => ¬ "test".toList <:+: f
  | _ => True

end CN24.Tool
