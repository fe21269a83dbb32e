import Verif.Model.Tensor
import Mathlib.Algebra.Order.Field.Basic

/-
src/util/Colorize.cpp.  `datum` is an ordered field; `uchar` is DATUM_FROM_UCHAR
(include/cn24/util/Config.h:38) on 0..255, `tiny` is std::numeric_limits<datum>::min().
-/

namespace CN24.Colorize
variable {R : Type _}

/-- The channels of a colour (src/util/Colorize.cpp:29-31, 61-63). -/
def channels (uchar : Nat → R) (color : Nat) : R × R × R :=
  (uchar (color / 2 ^ 16 % 256), uchar (color / 2 ^ 8 % 256), uchar (color % 256))

/-- Three writes (src/util/Colorize.cpp:40-42, 65-67). -/
def put3 (x y sample : Nat) (c : R × R × R) (target : Tensor R) : Option (Tensor R) :=
  (target.put x y 0 sample c.1).bind fun t =>
  (t.put x y 1 sample c.2.1).bind fun t =>
  t.put x y 2 sample c.2.2

section
variable [Field R] [LinearOrder R]

/-- What one pixel is painted in, for one class (src/util/Colorize.cpp:28-38) and for several
(src/util/Colorize.cpp:50-63). -/
def pixel (uchar : Nat → R) (tiny : R) (classes : Nat) (colors : List Nat) (output : Tensor R)
    (x y sample : Nat) : Option (R × R × R) :=
  if classes = 1 then
    (rd colors 0).bind fun color =>
    (output.get x y 0 sample).map fun value =>
      ((channels uchar color).1 * ((value + 1) / 2), (channels uchar color).2.1 * ((value + 1) / 2),
        (channels uchar color).2.2 * ((value + 1) / 2))
  else
    (Tensor.argmaxLoop classes tiny (fun c => output.get x y c sample)).bind fun r =>
    (rd colors r.1).map (channels uchar)

/-- `Dataset::Colorize` (src/util/Colorize.cpp:22-72).  The single-class branch looks up the colour
before the loops: it also does so for an output without pixels. -/
def colorize (uchar : Nat → R) (tiny : R) (classes : Nat) (colors : List Nat) (output target : Tensor R) :
    Option (Tensor R) :=
  if classes = 1 ∧ colors = [] then none
  else
    forLoop output.samples (fun sample => forLoop output.height (fun y => forLoop output.width (fun x target =>
      (pixel uchar tiny classes colors output x y sample).bind fun c => put3 x y sample c target))) target

end
end CN24.Colorize
