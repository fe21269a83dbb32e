import Verif.Model.TrainSettings

/-
The line that shows the settings of the training: `operator<<` for `TrainerSettings` (src/net/Trainer.cpp:553-573), which the
training program prints when it starts to take commands (tools/trainNetwork.cpp:237).
-/

namespace CN24.TrainSettings
open CN24 CN24.Config

variable {D : Type _}

/-- `operator<<` (src/net/Trainer.cpp:553-573).  `real` is the formatting of a `datum` by a stream.  The method is one of the two
that the description can select; the `switch` prints nothing for any other value. -/
def settingsText (real : D → Str) (s : Settings D) : Str :=
  "LR: ".toList ++ real (s.real .lr) ++ ", ".toList ++
  "GM: ".toList ++ real (s.real .gamma) ++ ", ".toList ++
  "EX: ".toList ++ real (s.real .exponent) ++ ", ".toList ++
  "SB: ".toList ++ digitsOf (s.count .sbatchsize) ++ ", ".toList ++
  "PB: ".toList ++ digitsOf (s.count .pbatchsize) ++ ", ".toList ++
  "L1: ".toList ++ real (s.real .l1) ++ ", ".toList ++
  "L2: ".toList ++ real (s.real .l2) ++ ", ".toList ++
  "MM: ".toList ++ real (s.real .momentum) ++ ", ".toList ++
  "MU: ".toList ++ real (s.real .mu) ++ ", ".toList ++
  "ET: ".toList ++ real (s.real .eta) ++ ", ".toList ++
  (if s.quickprop then "QP".toList else "GD".toList)

/-- The line printed before the first command (tools/trainNetwork.cpp:237), from the settings that the description gives to the
members `s` (src/factory/ConfigurableFactory.cpp:504-535). -/
def shownSettings (conv : Str → D) (real : D → Str) (text : Str) (s : Settings D) : Outcome Str :=
  (initSettings conv text s).bind fun s => .done ("Current training settings: ".toList ++ settingsText real s)

end CN24.TrainSettings
