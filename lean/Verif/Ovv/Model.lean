import Verif.Index.Model

/-!
# Model of the Level 3 images and their overviews

The loop of `level3` (level3-hl.c:315-357) around the compositing of a pixel, and `bap_overview` (bap-hl.c:908-1004).

Simplifications: the compositing of a pixel is a parameter (see the module Bap). The resolution is a positive
rational number; exact arithmetic instead of `double` and `float`.
-/

namespace Verif.Ovv

open Verif.Str (Out)
open Verif.Index (truncQ)

/-- The values of the bands at the pixels of a chunk. -/
abbrev Image := Nat → Nat → Int

/-- brick_base-cl.c (`allocate_brick_bands`), alloc-cl.c: the memory of a new brick is zero. -/
def blank : Image := fun _ _ => 0

/-- level3-hl.c:329-351: one pixel `p`; `bap p` are the bands that the compositing writes. -/
def visit (mask : Option (Nat → Bool)) (bap : Nat → Nat → Int) (img : Image) (p : Nat) : Image :=
  if mask.any fun m => !m p then img else fun b q => if q = p then bap p b else img b q

/-- level3-hl.c:325-351: all pixels, in any order. -/
def level3 (mask : Option (Nat → Bool)) (bap : Nat → Nat → Int) (order : List Nat) : Image :=
  order.foldl (visit mask bap) blank

/-- bap-hl.c:921 and level3-hl.c:156: resolution of the overview. -/
def coarse (res : ℚ) : ℚ := if res > 150 then res else 150

/-- bap-hl.c:922-923 and level3-hl.c:157-160: number of rows or columns of the overview. -/
def size (n : Nat) (res : ℚ) : Nat := (truncQ (n * res / coarse res)).toNat

/-- bap-hl.c:942-943: the row or column that is shown. -/
def source (i : Nat) (res : ℚ) : Nat := (truncQ (i * (coarse res / res))).toNat

/-- `(small)` of a floating point number: undefined if the truncated number is out of range. -/
def small (x : ℚ) : Out Int := if 0 ≤ truncQ x ∧ truncQ x ≤ 255 then .ok (truncQ x) else .ub

/-- bap-hl.c:948-954: optical bands. -/
def optical (nodata v : Int) : Out Int :=
  if v < 0 ∨ v = nodata then .ok 0
  else if v > 2500 then .ok 255
  else small (v / 2500 * 255)

/-- bap-hl.c:973-986: radar bands; `lo` is -1600 or -2200. -/
def radar (lo nodata v : Int) : Out Int :=
  if v < lo ∨ v = nodata then .ok 0
  else if v > lo + 1000 then .ok 255
  else small (((v - lo : Int) : ℚ) / 1000 * 255)

/-- bap-hl.c:988-996: ratio of the radar bands. If `vh` is zero the ratio is infinite or not a number: minus
infinity is smaller than 0.2, the conversion of the others is undefined. -/
def ratioBand (nodata vv vh : Int) : Out Int :=
  if vv = nodata ∨ vh = nodata then .ok 0
  else if vh = 0 then (if vv < 0 then .ok 0 else .ub)
  else if (vv : ℚ) / vh < 1 / 5 then .ok 0
  else if vh > 1 then .ok 255
  else small (((vv : ℚ) / vh - 1 / 5) / (4 / 5) * 255)

/-- bap-hl.c:945-998: the three bands of the overview (red, green, blue) for the pixel `p`. The bands of the composite are
blue, green, red, ... or VV, VH. -/
def colours (nb : Nat) (nodata : Int) (img : Image) (p : Nat) : List (Out Int) :=
  if nb = 2 then [radar (-1600) nodata (img 0 p), radar (-2200) nodata (img 1 p), ratioBand nodata (img 0 p) (img 1 p)]
  else [optical nodata (img 2 p), optical nodata (img 1 p), optical nodata (img 0 p)]

/-- bap-hl.c:939-1000: the overview of a chunk with `nx` columns and `ny` rows: position and colours. -/
def overview (nb : Nat) (nodata : Int) (nx ny : Nat) (res : ℚ) (img : Image) : List (Nat × List (Out Int)) :=
  (List.range (size ny res)).flatMap fun (i : Nat) => (List.range (size nx res)).map fun (j : Nat) =>
    (i * size nx res + j, colours nb nodata img (source i res * nx + source j res))

end Verif.Ovv
