import Verif.Model.Image

/-
The window that shows a tensor, in a build with GTK (src/util/TensorViewer.cpp): the picture given to the toolkit.
The window itself is not modelled.
-/

namespace CN24.Viewer
open CN24 CN24.Image

/-- The byte for channel `cmap` of a value of a single map (src/util/TensorViewer.cpp:46-48). -/
def mapByte (cmap : Nat) (v : ℚ) : Option Nat :=
  let value := max (min v 1) (-1)
  toUchar (if (value < 0 ∧ cmap = 0) ∨ (0 ≤ value ∧ cmap = 1) then value else 0)

/-- `copyTV` (src/util/TensorViewer.cpp:23-53) with `factor` 1, the only value it is called with; `target` are the bytes of the
pixel buffer, whose rows are `stride` bytes apart. -/
def copyTV (t : Tensor ℚ) (stride amap sample : Nat) (target : List Nat) : Option (List Nat) :=
  if t.maps = 3 then
    forLoop 3 (fun cmap => forLoop t.height fun y => forLoop t.width fun x target =>
      (rd t.data (t.offset 0 y cmap sample + x)).bind fun v => (toUchar v).bind fun b =>
      wr target (stride * y + (3 * x + cmap)) b) target
  else
    forLoop 3 (fun cmap => forLoop t.height fun y => forLoop t.width fun x target =>
      (rd t.data (t.offset 0 y amap sample + x)).bind fun v => (mapByte cmap v).bind fun b =>
      wr target (stride * y + (3 * x + cmap)) b) target

/-- The layer view of `NetGraph::FeedForward` (src/net/NetGraph.cpp:318-330): one window for every sample and every map of a
buffer.  `blank` are the new pixel buffers; the pictures in the order of the windows. -/
def layerView (t : Tensor ℚ) (stride : Nat) (blank : List Nat) : Option (List (List Nat)) :=
  forLoop t.samples (fun sample => forLoop t.maps fun map pictures =>
    (copyTV t stride map sample blank).map fun p => pictures ++ [p]) []

end CN24.Viewer
