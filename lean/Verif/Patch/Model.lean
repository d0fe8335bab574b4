import Verif.Str.Model
import Mathlib.Data.Rat.Floor

/-!
Comparison of two image patches before they are matched: src/modules/lower-level/coregfuns-ll.c `GetMeanDiff` and its call.
-/

namespace Verif.Patch

open Verif.Str (Out)

/-- A read of the pixel with an index; outside of the array it is undefined. -/
def px (img : List Int) (k : Int) : Out Int :=
  if k < 0 then .ub else match img[k.toNat]? with
    | none => .ub
    | some v => .ok v

/-- coregfuns-ll.c:342: difference of two pixels. -/
def dist (a b : Int) : Int := if a > b then a - b else b - a

/-- coregfuns-ll.c:338-345: `n` pixels of a row are left. -/
def row (img1 img2 : List Int) : Nat → Int → Int → Int → Out Int
  | 0, _, _, diff => .ok diff
  | n + 1, p1, p2, diff =>
    (px img1 p1).bind fun a => (px img2 p2).bind fun b => row img1 img2 n (p1 + 1) (p2 + 1) (diff + dist a b)

/-- coregfuns-ll.c:336-348: `n` rows are left. -/
def rows (img1 img2 : List Int) (col1 col2 : Int) (width : Nat) : Nat → Int → Int → Int → Out Int
  | 0, _, _, diff => .ok diff
  | n + 1, p1, p2, diff =>
    (row img1 img2 width p1 p2 diff).bind fun diff => rows img1 img2 col1 col2 width n (p1 + col1) (p2 + col2) diff

/-- coregfuns-ll.c:321-352 `GetMeanDiff`. The sum and the mean are floats in the code; they are not rounded here. A mean that is
no `short` is undefined. -/
def meanDiff (img1 : List Int) (col1 : Int) (img2 : List Int) (col2 : Int) (x1 y1 x2 y2 : Int) (width height : Nat) : Out Int :=
  let p1 := (y1 - (height / 2 : Nat)) * col1 + (x1 - (width / 2 : Nat))
  let p2 := (y2 - (height / 2 : Nat)) * col2 + (x2 - (width / 2 : Nat))
  (rows img1 img2 col1 col2 width height p1 p2 0).bind fun diff =>
    if width * height = 0 then .ub else
    let v := ⌊(diff : ℚ) / ((width * height : Nat) : ℚ) + 1 / 2⌋
    if v > 32767 then .ub else .ok v

/-- coregfuns-ll.c:71-72, 112: the call for patches of `w` columns and `h` rows in the left image and a border of one pixel in the
right one; are they too different to be matched? -/
def different (left right : List Int) (w h : Nat) (threshold : Int) : Out Bool :=
  (meanDiff left w right (w + 2 : Nat) (w / 2 : Nat) (h / 2 : Nat) ((w + 2) / 2 : Nat) ((h + 2) / 2 : Nat) w h).bind fun d =>
    .ok (decide (d ≥ threshold))

end Verif.Patch
