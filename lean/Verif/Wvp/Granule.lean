import Mathlib.Data.Rat.Lemmas
import Mathlib.Algebra.Order.Ring.Rat
import Verif.Str.Model

/-!
# MODIS granules: model

src/modules/lower-level/modwvp-ll.c. Coordinates (`float`) are rational numbers without
rounding.
-/

namespace Verif.Wvp

open Verif.Str (Out)

/-- Corners of a granule, `gr[l][0][·]` (longitudes) and `gr[l][1][·]` (latitudes). -/
structure Ring where
  x : Fin 4 → ℚ
  y : Fin 4 → ℚ

/-- modwvp-ll.c:328-340: longitudes relative to the first corner. -/
def relative (r : Ring) : Ring :=
  { r with x := fun g =>
      if g = 0 then r.x 0
      else
        let m0 := |r.x 0 - r.x g|
        let m1 := |r.x 0 - (r.x g + 360)|
        let m2 := |r.x 0 - (r.x g - 360)|
        let v := if m1 < m0 ∧ m1 < m2 then r.x g + 360 else r.x g
        if m2 < m0 ∧ m2 < m1 then v - 360 else v }

/-- modwvp-ll.c:342-348: order of the corners, upper left corner first. -/
def reorder (r : Ring) : Ring :=
  if r.x 2 < r.x 0 ∧ r.y 2 > r.y 0 then ⟨fun g => r.x (g + 2), fun g => r.y (g + 2)⟩ else r

/-- A line of the geometa table after reading, modwvp-ll.c:273-308: whether the flag is "D"
or "B", the bounding box (west, east, north, south) and the corners. -/
structure Line where
  day : Bool
  w : ℚ
  e : ℚ
  n : ℚ
  s : ℚ
  ring : Ring

/-- modwvp-ll.c:314-348: granules that are used, with their corners; `none` for the others. -/
def geometa (l : Line) : Option Ring :=
  if ¬ l.day then none
  else if (l.w = -180 ∧ l.e = 180) ∨ (|l.n| > 89 ∨ |l.s| > 89) then none
  else some (reorder (relative l.ring))

/-- Longitude of the line through corners `i` and `j` at a latitude, as it is written in
`modis_intersect` and `modis_inside`. -/
def lonAt (r : Ring) (i j : Fin 4) (lat : ℚ) : ℚ :=
  (r.x i * (r.y j - lat) + r.x j * (lat - r.y i)) / (r.y j - r.y i)

/-- Latitude of the line through corners `i` and `j` at a longitude. -/
def latAt (r : Ring) (i j : Fin 4) (lon : ℚ) : ℚ :=
  (r.y i * (r.x j - lon) + r.y j * (lon - r.x i)) / (r.x j - r.x i)

/-- `dboff`, modwvp-ll.c:391, 450. -/
def dboff : List ℚ := [0, 360, -360]

/-- Half of the width of the frame. -/
def half : ℚ := 3 / 4

/-- modwvp-ll.c:402-423: condition of `modis_intersect` for one offset. -/
def meets (r : Ring) (lat lon off : ℚ) : Bool :=
  let w := (lon - half) + off
  let e := (lon + half) + off
  let n := lat + half
  let s := lat - half
  (w < lonAt r 1 2 n || w < lonAt r 1 2 s) && (e > lonAt r 0 3 n || e > lonAt r 0 3 s) &&
    (n > latAt r 3 2 w || n > latAt r 3 2 e) && (s < latAt r 0 1 w || s < latAt r 0 1 e)

/-- modwvp-ll.c:388-433 `modis_intersect`: the granules (their indices), in order. The array
that receives them is not modelled. -/
def modisIntersect (lat lon : ℚ) (gr : List (Option Ring)) : List Nat :=
  (gr.zipIdx).flatMap fun p =>
    match p.1 with
    | none => []
    | some r => (dboff.filter (meets r lat lon)).map fun _ => p.2

/-- modwvp-ll.c:458-483: condition of `modis_inside` for one offset. -/
def holds (r : Ring) (lat lon off : ℚ) : Bool :=
  let w := (lon - half) + off
  let e := (lon + half) + off
  let n := lat + half
  let s := lat - half
  w > lonAt r 0 3 n && w > lonAt r 0 3 s && e < lonAt r 1 2 n && e < lonAt r 1 2 s &&
    n < latAt r 0 1 w && s > latAt r 3 2 w && n < latAt r 0 1 e && s > latAt r 3 2 e

/-- modwvp-ll.c:448-494 `modis_inside`: `none` for -1. -/
def modisInside (lat lon : ℚ) (gr : List (Option Ring)) (ptr : List Nat) : Option Nat :=
  ptr.find? fun i =>
    match gr[i]? with
    | some (some r) => dboff.any (holds r lat lon)
    | _ => false

/-- modwvp-ll.c:591-612: the granules that are read for a location. -/
def granules (lat lon : ℚ) (gr : List (Option Ring)) : List Nat :=
  let ptr := modisIntersect lat lon gr
  if ptr.length > 1 then
    match modisInside lat lon gr ptr with
    | some p => [p]
    | none => ptr
  else ptr

/-- What is read from a granule, modwvp-ll.c:728-802: size of the water vapour, size of the
geolocation, offsets, water vapour, cloud byte, latitude and longitude (arrays with one
element per pixel of their image), fill value, offset and scale. -/
structure Granule where
  nx : Nat
  ny : Nat
  nxc : Nat
  nyc : Nat
  xoff : Nat
  yoff : Nat
  pw : Nat → ℤ
  cld : Nat → Nat
  lat : Nat → ℚ
  lon : Nat → ℚ
  fill : ℤ
  voff : ℚ
  vscl : ℚ

/-- modwvp-ll.c:101-110 `int2bit`: bit `k` of a byte. -/
def int2bit (v k : Nat) : Bool := (v / 2 ^ k) % 2 = 1

/-- Frame, modwvp-ll.c:588-589. -/
structure Frame where
  w : ℚ
  e : ℚ
  n : ℚ
  s : ℚ

/-- `sumwvp`, `ctrwvp`, `ctrall[c]`. -/
structure Acc where
  sum : ℚ
  ctr : Nat
  all : Nat
deriving DecidableEq, Repr

/-- modwvp-ll.c:812-831: one pixel; undefined if the geolocation is read outside of its
array. -/
def onePixel (g : Granule) (f : Frame) (y x yc xc : Nat) (a : Acc) : Out Acc :=
  let pos := g.nx * y + x
  let posc := g.nxc * yc + xc
  if posc ≥ g.nxc * g.nyc then .ub
  else if g.lon posc ≥ f.w ∧ g.lon posc ≤ f.e ∧ g.lat posc ≤ f.n ∧ g.lat posc ≥ f.s then
    .ok ⟨if g.pw pos ≠ g.fill ∧ int2bit (g.cld pos) 2 ∧ int2bit (g.cld pos) 4 then a.sum + g.vscl * (g.pw pos - g.voff) else a.sum,
      if g.pw pos ≠ g.fill ∧ int2bit (g.cld pos) 2 ∧ int2bit (g.cld pos) 4 then a.ctr + 1 else a.ctr, a.all + 1⟩
  else .ok a

/-- modwvp-ll.c:810, 833-834: the columns of a row; `rest` columns remain, `xct` counts to
five. -/
def cols (g : Granule) (f : Frame) (y yc : Nat) : (rest x xc xct : Nat) → Acc → Out Acc
  | 0, _, _, _, a => .ok a
  | r + 1, x, xc, xct, a =>
    (onePixel g f y x yc xc a).bind fun a =>
      if xct ≥ 5 then cols g f y yc r (x + 1) (xc + 1) 1 a else cols g f y yc r (x + 1) xc (xct + 1) a

/-- modwvp-ll.c:809, 835-836: the rows. -/
def rows (g : Granule) (f : Frame) : (rest y yc yct : Nat) → Acc → Out Acc
  | 0, _, _, _, a => .ok a
  | r + 1, y, yc, yct, a =>
    (cols g f y yc (g.nx - g.xoff) g.xoff 0 1 a).bind fun a =>
      if yct ≥ 5 then rows g f r (y + 1) (yc + 1) 1 a else rows g f r (y + 1) yc (yct + 1) a

/-- modwvp-ll.c:808-836: one granule. -/
def sumGranule (g : Granule) (f : Frame) (a : Acc) : Out Acc := rows g f (g.ny - g.yoff) g.yoff 0 1 a

/-- The granules of a location, one after the other. -/
def sumAll (f : Frame) : List Granule → Acc → Out Acc
  | [], a => .ok a
  | g :: l, a => (sumGranule g f a).bind fun a => sumAll f l a

/-- modwvp-ll.c:843-846: the average, 9999 if there are too few pixels. -/
def average (a : Acc) : ℚ := if a.all > 0 ∧ (a.ctr : ℚ) ≥ a.all / 10 then a.sum / a.ctr else 9999

/-- modwvp-ll.c:583-589 and 808-846: average and number of pixels of a location. -/
def compile (lat lon : ℚ) (gs : List Granule) : Out (ℚ × Nat) :=
  (sumAll ⟨lon - half, lon + half, lat + half, lat - half⟩ gs ⟨0, 0, 0⟩).bind fun a => .ok (average a, a.all)

/-- modwvp-ll.c:879-911 `choose_modis_wvp` for one location: value and source before (`v`,
`s`) and after. -/
def choose (aqua : Bool) (v : ℚ) (s : String) (mod myd : ℚ × Nat) : ℚ × String :=
  if ¬ aqua then (mod.1, if mod.1 < 9999 then "MOD" else s)
  else if mod.1 < 9999 ∧ myd.1 < 9999 then
    (if mod.2 ≥ myd.2 then (mod.1, if mod.1 < 9999 then "MOD" else s) else (myd.1, if myd.1 < 9999 then "MYD" else s))
  else if mod.1 < 9999 ∧ myd.1 ≥ 9999 then (mod.1, if mod.1 < 9999 then "MOD" else s)
  else if mod.1 ≥ 9999 ∧ myd.1 < 9999 then (myd.1, if myd.1 < 9999 then "MYD" else s)
  else (v, s)

/-- modwvp-ll.c:1025-1123 `create_wvp_lut` without the downloads: the lines of the table, or
`none` if no table is written. `mod` and `myd` are the results of `compile` (9999 and 0
without granules). -/
def createLut (date : Int) (mod myd : List (ℚ × Nat)) : Option (List (ℚ × String)) :=
  let aqua := decide (date ≥ 20020703)
  let l := (mod.zip myd).map fun p => choose aqua 9999 "TBD" p.1 p.2
  if (l.filter fun p => p.1 ≠ 9999).length > 0 then some l else none

end Verif.Wvp
