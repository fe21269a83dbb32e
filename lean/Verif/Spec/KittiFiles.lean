/-
Reading the name of a file of the KITTI road data, written down from the layout of the published archive
(`training/image_2/um_000000.png`, `training/gt_image_2/um_road_000000.png`, `testing/image_2/um_000000.png`).
-/

namespace CN24.KittiName

/-- What a file is for. -/
inductive Role where
  | image | testImage | road | lane
  deriving DecidableEq, Repr

/-- The part of a path after its last slash, and the part up to it. -/
def splitPath (path : List Char) : List Char × List Char :=
  let r := path.reverse
  ((r.dropWhile (· ≠ '/')).reverse, (r.takeWhile (· ≠ '/')).reverse)

/-- The words of a name, separated by underscores. -/
def words : List Char → List (List Char)
  | [] => [[]]
  | c :: s =>
    if c = '_' then [] :: words s
    else match words s with
      | [] => [[c]]
      | w :: ws => (c :: w) :: ws

/-- The value of decimal digits. -/
def value (s : List Char) : Nat := s.foldl (fun n c => 10 * n + (c.toNat - 48)) 0

/-- The number in the last word of a name, `….png`. -/
def number (s : List Char) : Option Nat :=
  let digits := s.takeWhile Char.isDigit
  if 6 ≤ digits.length ∧ s.dropWhile Char.isDigit = ".png".toList then some (value digits) else none

/-- The folder of a role below the folder of the data. -/
def folder : Role → List Char
  | .image => "training/image_2/".toList
  | .testImage => "testing/image_2/".toList
  | .road => "training/gt_image_2/".toList
  | .lane => "training/gt_image_2/".toList

/-- A name: role, category and number. -/
def read (source path : List Char) : Option (Role × List Char × Nat) :=
  let (dir, name) := splitPath path
  match words name with
  | [category, n] =>
    if dir = source ++ folder .image then (number n).map fun k => (.image, category, k)
    else if dir = source ++ folder .testImage then (number n).map fun k => (.testImage, category, k)
    else none
  | [category, kind, n] =>
    if dir = source ++ folder .road then
      if kind = "road".toList then (number n).map fun k => (.road, category, k)
      else if kind = "lane".toList then (number n).map fun k => (.lane, category, k)
      else none
    else none
  | _ => none

end CN24.KittiName
