import Mathlib.Data.Rat.Floor
import Verif.Brick.Model
import Verif.Index.Model
import Verif.Qai.Model

/-!
# Model of the smoothed and the averaged elevation, and of the aerosol flag

`smooth_topography` and `average_elevation_cell` of `src/modules/lower-level/topo-ll.c`, and the flag for
aerosol in `src/modules/lower-level/atmo-ll.c`. Numbers are rational; the loops over the pixels are parallel
in the code, each pixel is written by one iteration only.
-/

namespace Verif.Dem

/-- utils-cl.c:200-213 `fequal`, with exact arithmetic; `FLT_EPSILON` is 2^-23. -/
def fequal (a b : ℚ) : Bool := decide (|a - b| ≤ (if |b| > |a| then |b| else |a|) * (1 / 8388608))

/-- topo-ll.c:207-210, in `smooth_topography`: the positions around row `i` and column `j`, up to the distance `k`. -/
def window (k : Nat) (i j : Int) : List (Int × Int) :=
  (List.range (2 * k + 1)).flatMap fun (a : Nat) => (List.range (2 * k + 1)).map fun (b : Nat) =>
    (i + ((a : Int) - k), j + ((b : Int) - k))

/-- topo-ll.c:211-217, in `smooth_topography`: one position; the state is the sum and the number. -/
def add (nx ny : Nat) (nodata : ℚ) (dem : Int → Int → ℚ) (s : ℚ × Nat) (n : Int × Int) : ℚ × Nat :=
  if n.1 > (ny : Int) - 1 ∨ n.1 < 0 ∨ n.2 > (nx : Int) - 1 ∨ n.2 < 0 then s
  else if fequal (dem n.1 n.2) nodata then s
  else (s.1 + dem n.1 n.2, s.2 + 1)

/-- topo-ll.c:199-222, in `smooth_topography`: the new elevation in row `i` and column `j`. -/
def smoothed (nx ny k : Nat) (nodata : ℚ) (dem : Int → Int → ℚ) (i j : Int) : ℚ :=
  if dem i j = nodata then nodata
  else
    let s := (window k i j).foldl (add nx ny nodata dem) (0, 0)
    if s.2 > 0 then s.1 / s.2 else nodata

/-- topo-ll.c:160-238 `smooth_topography`: the new elevations. -/
def smooth (nx ny : Nat) (res nodata : ℚ) (dem : Int → Int → ℚ) : Int → Int → ℚ :=
  if res ≥ 30 then dem
  else smoothed nx ny (Index.truncQ (30 / res)).toNat nodata dem

/-- libc `round`: half away from zero (the argument is not negative here). -/
def round (q : ℚ) : Int := ⌊q + 1 / 2⌋

/-- topo-ll.c:1026-1037, in `average_elevation_cell`: the fine pixels of a cell, in the order of the loops. -/
def cellPixels (size : Nat) (i j : Int) : List (Int × Int) :=
  (List.range size).flatMap fun (a : Nat) => (List.range size).map fun (b : Nat) => (i + (a : Int), j + (b : Int))

/-- topo-ll.c:1029-1035, in `average_elevation_cell`: one fine pixel. -/
def addCell (fine : Brick.Grid) (off : Int → Int → Bool) (dem : Int → Int → Nat) (s : ℚ × Nat) (n : Int × Int) : ℚ × Nat :=
  if n.1 > fine.ny - 1 ∨ n.2 > fine.nx - 1 then s
  else if off n.1 n.2 then s
  else (s.1 + dem n.1 n.2, s.2 + 1)

/-- topo-ll.c:1009-1046 `average_elevation_cell`: the value of the coarse cell `g`. `rd` is the rounding to a
double in the conversion of the position. -/
def averageCell (rd : ℚ → ℚ) (coarse fine : Brick.Grid) (off : Int → Int → Bool) (dem : Int → Int → Nat) (g : Int) : Int :=
  let start := Brick.p2ji rd coarse fine g
  let size := ⌊coarse.res / fine.res⌋.toNat
  let s := (cellPixels size start.1 start.2).foldl (addCell fine off dem) (0, 0)
  if s.2 > 0 then round (s.1 / s.2) else 0

/-- atmo-ll.c:915-925, in `atmo_elevdep`: the quality bits of a pixel; `aodmap`: is there a map of the optical depth,
`aod`: its value in the green band for the elevation of the pixel, `interp`: was it interpolated? -/
def aerosolFlag (aodmap : Bool) (aod : ℚ) (interp : Bool) (v : BitVec 16) : BitVec 16 :=
  if Qai.get .off v ≠ 0 then v
  else if !aodmap then Qai.set .aod v 3
  else if aod > 6 / 10 then Qai.set .aod v 2
  else if interp then Qai.set .aod v 1
  else v

end Verif.Dem
