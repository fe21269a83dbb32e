import Verif.Spec.Config

/-
The specification vocabulary for network descriptions, independent of the model: descriptions as data
and their text, the size of the input that a chain of layers needs, and windows.
-/

namespace CN24.NetConfig
open CN24.Config

/-- A decimal number. -/
def num (n : Nat) : Str := Nat.toDigits 10 n

/-- A pair of numbers, `AxB`. -/
def pairNum (a : Nat × Nat) : Str := num a.1 ++ 'x' :: num a.2

/-- An optional parameter. -/
def optional (key : Str) : Option (Nat × Nat) → List (Str × Str)
  | none => []
  | some a => [(key, pairNum a)]

inductive Act where
  | sigm
  | relu
  | tanh
  deriving DecidableEq, Repr

def Act.name : Act → Str
  | .sigm => "sigm".toList
  | .relu => "relu".toList
  | .tanh => "tanh".toList

/-- The lines of a description of a chain of layers.  `other` is a line of another part of the
program. -/
inductive Item where
  | comment (text : Str)
  | other (text : Str)
  | patches
  | conv (maps : Nat) (kernel : Nat × Nat) (stride pad : Option (Nat × Nat))
  | full (neurons : Nat)
  | maxPool (size : Nat × Nat)
  | down (size : Nat × Nat)
  | stridedPool (size : Nat × Nat) (stride : Option (Nat × Nat))
  | act (a : Act)
  deriving DecidableEq, Repr

/-- A layer line: a question mark, the name and the parameters. -/
def layerText (name : Str) (ps : List (Str × Str)) : Str := '?' :: joinSp (name :: ps.map pairText)

def Item.text : Item → Str
  | .comment t => '#' :: t
  | .other t => t
  | .patches => "method=patch".toList
  | .conv maps kernel stride pad => layerText "convolutional".toList
      ([("kernels".toList, num maps), ("size".toList, pairNum kernel)] ++
        optional "stride".toList stride ++ optional "pad".toList pad)
  | .full n => layerText "fullyconnected".toList [("neurons".toList, num n)]
  | .maxPool k => layerText "maxpooling".toList [("size".toList, pairNum k)]
  | .down k => layerText "downsampling".toList [("size".toList, pairNum k)]
  | .stridedPool k s => layerText "amaxpooling".toList
      (("size".toList, pairNum k) :: optional "stride".toList s)
  | .act a => layerText a.name []

/-- Lines separated by line feeds. -/
def joinLines : List Str → Str
  | [] => []
  | [l] => l
  | l :: m :: ls => l ++ '\n' :: joinLines (m :: ls)

/-- What a layer does along one axis: a window of `k` values is moved in steps of `s` over the input,
extended by `p` values on both sides; or the input is cut into tiles of `k` values. -/
inductive Geo where
  | window (k s p : Nat)
  | tile (k : Nat)
  deriving DecidableEq, Repr

/-- The ratio between the sizes of input and output. -/
def Geo.factor : Geo → Nat
  | .window _ s _ => s
  | .tile k => k

/-- How much larger the input is. -/
def Geo.extra : Geo → Nat
  | .window k _ p => k - 1 - 2 * p
  | .tile _ => 0

/-- No empty windows, no empty steps, no window that sees padding only in excess. -/
def Geo.Ok : Geo → Prop
  | .window k s p => 0 < k ∧ 0 < s ∧ 2 * p < k ∧ k ≤ 2147483647 ∧ s ≤ 2147483647
  | .tile k => 0 < k ∧ k ≤ 2147483647

/-- The factor of a chain. -/
def total : List Geo → Nat
  | [] => 1
  | g :: gs => g.factor * total gs

/-- The border of a chain: the input that gives `n` outputs has `field + total * n` values. -/
def field : List Geo → Nat
  | [] => 0
  | g :: gs => g.extra + g.factor * field gs

/-- Both axes of a line. -/
def Item.geo : Item → Option (Geo × Geo)
  | .conv _ k s p =>
    let s := s.getD (1, 1)
    let p := p.getD (0, 0)
    some (.window k.1 s.1 p.1, .window k.2 s.2 p.2)
  | .full _ => some (.window 1 1 0, .window 1 1 0)
  | .maxPool k => some (.tile k.1, .tile k.2)
  | .down k => some (.tile k.1, .tile k.2)
  | .stridedPool k s => some (.window k.1 (s.getD k).1 0, .window k.2 (s.getD k).2 0)
  | _ => none

def geoX (items : List Item) : List Geo := items.filterMap fun i => i.geo.map (·.1)
def geoY (items : List Item) : List Geo := items.filterMap fun i => i.geo.map (·.2)

/-- The maps of the output of a line. -/
def Item.maps (m : Nat) : Item → Nat
  | .conv maps .. => maps
  | .full n => n
  | _ => m

/-- The maps of the output of a chain. -/
def mapsOf : List Item → Nat → Nat
  | [], m => m
  | i :: is, m => mapsOf is (i.maps m)

/-- Lines that mean nothing to the factory. -/
structure Foreign (t : Str) : Prop where
  layer : ¬ ['?'] <+: t
  stack : ∀ s ∈ ["pusha".toList, "pushb".toList, "popa".toList, "popb".toList, "manual".toList],
    ¬ s <+: t
  text : ∀ s ∈ ["method=".toList, "fullyconnected".toList, "(o)".toList], ¬ s <:+: t

/-- Well-formed lines. -/
def Item.Ok (i : Item) : Prop :=
  (∀ t, i = .other t → Foreign t) ∧
  (∀ n k s p, i = .conv n k s p → n ≤ 2147483647) ∧ (∀ n, i = .full n → n ≤ 2147483647) ∧
  ∀ g, i.geo = some g → g.1.Ok ∧ g.2.Ok

/-! ### Windows -/

/-- One layer along one axis, seen from an output: it reads the `k` inputs from `s` times its position.
-/
structure Window where
  k : Nat
  s : Nat
  deriving DecidableEq, Repr

/-- The inputs of a chain that take part in the value of output `x`. -/
def Feeds : List Window → Nat → Nat → Prop
  | [], x, i => i = x
  | l :: ls, x, i => ∃ j, Feeds ls x j ∧ l.s * j ≤ i ∧ i < l.s * j + l.k

/-- The window of a layer. -/
def Geo.toWindow : Geo → Window
  | .window k s _ => ⟨k, s⟩
  | .tile k => ⟨k, k⟩

/-- A layer as an operator on images: the value of an output pixel is computed from the window of the
input that starts at the position times the steps.  A pixel value holds all maps. -/
structure Op (V : Type _) where
  x : Window
  y : Window
  g : (Nat → Nat → V) → V

namespace Op
variable {V : Type _}

/-- Only the window matters. -/
def Local (o : Op V) : Prop :=
  ∀ u v : Nat → Nat → V, (∀ i j, i < o.x.k → j < o.y.k → u i j = v i j) → o.g u = o.g v

/-- The output image. -/
def run (o : Op V) (u : Nat → Nat → V) : Nat → Nat → V :=
  fun x y => o.g fun i j => u (o.x.s * x + i) (o.y.s * y + j)

/-- A chain, first layer first. -/
def runAll : List (Op V) → (Nat → Nat → V) → Nat → Nat → V
  | [], u => u
  | o :: os, u => runAll os (o.run u)

end Op

/-! ### Stacks -/

/-- The change of the height of a stack by a line. -/
def change (push pop line : Str) : Int :=
  if push.isPrefixOf line then 1 else if pop.isPrefixOf line then -1 else 0

/-- The height of a stack before line `k`. -/
def height (push pop : Str) (lines : List Str) (k : Nat) : Int :=
  ((lines.take k).map (change push pop)).sum

/-- Line `i` pushes a value that is still on the stack before line `k`: the height never came back to
what it was. -/
def OpenPush (push pop : Str) (lines : List Str) (k i : Nat) : Prop :=
  i < k ∧ (∃ l, lines[i]? = some l ∧ push.isPrefixOf l = true) ∧
    ∀ j, i < j → j ≤ k → height push pop lines i < height push pop lines j

end CN24.NetConfig
