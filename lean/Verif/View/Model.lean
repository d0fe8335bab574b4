import Verif.Brick.Model
import Verif.Index.Model
import Mathlib.Analysis.SpecialFunctions.Complex.Arg
import Mathlib.Analysis.SpecialFunctions.Trigonometric.Inverse

/-!
# Model of the view geometry

`sun_target_view`, `viewgeo` and `view_angle` of `src/modules/lower-level/sunview-ll.c`, `get_brick_x` and `get_brick_y` of
`src/modules/cross-level/brick_base-cl.c`. Simplifications: the distance from the nadir line and the angles are real numbers; the
cells of missing Sentinel-2 angles (`cellRows`) are modelled with the roundings of `float`, since they decide the result; the code for
`ACIX2` is left out (not compiled by default).
-/

namespace Verif.View

/-! ## Corners of the image -/

/-- `uly`, `ulx`, `ury`, `urx`, `lly`, `llx`, `lry`, `lrx`. -/
structure Corners where
  uly : ℤ
  ulx : ℤ
  ury : ℤ
  urx : ℤ
  lly : ℤ
  llx : ℤ
  lry : ℤ
  lrx : ℤ
deriving DecidableEq, Repr

/-- sunview-ll.c:256-258. -/
def Corners.init (ncells : ℤ) : Corners :=
  { uly := -1, ulx := 0, ury := 0, urx := -1, lly := 0, llx := ncells, lry := -1, lrx := 0 }

/-- sunview-ll.c:266-270: one pixel that is not `off`, in row `q.1` and column `q.2`. -/
def Corners.add (k : Corners) (q : ℤ × ℤ) : Corners :=
  { uly := if k.uly = -1 then q.1 else k.uly
    ulx := if k.uly = -1 then q.2 else k.ulx
    ury := if q.2 > k.urx then q.1 else k.ury
    urx := if q.2 > k.urx then q.2 else k.urx
    lly := if q.2 ≤ k.llx then q.1 else k.lly
    llx := if q.2 ≤ k.llx then q.2 else k.llx
    lry := if q.1 ≥ k.lry then q.1 else k.lry
    lrx := if q.1 ≥ k.lry then q.2 else k.lrx }

/-- The loops over rows and columns, sunview-ll.c:264-265. -/
def pixels (ny nx : Nat) : List (ℤ × ℤ) :=
  (List.range ny).flatMap fun (i : Nat) => (List.range nx).map fun (j : Nat) => ((i : ℤ), (j : ℤ))

/-- sunview-ll.c:256-272. -/
def corners (off : ℤ × ℤ → Bool) (ny nx : Nat) : Corners :=
  (pixels ny nx).foldl (fun k q => if off q then k else k.add q) (Corners.init (nx * ny))

/-- sunview-ll.c:282-284: the middles of top and bottom: `ux`, `uy`, `lx`, `ly`. -/
structure Nadir where
  ux : ℤ
  uy : ℤ
  lx : ℤ
  ly : ℤ

def Corners.nadir (k : Corners) : Nadir :=
  { ux := (k.ulx + k.urx).tdiv 2, uy := (k.uly + k.ury).tdiv 2
    lx := (k.llx + k.lrx).tdiv 2, ly := (k.lly + k.lry).tdiv 2 }

noncomputable section

open Real

/-! ## Nadir line -/

/-- sunview-ll.c:302-305: `view.a`, `view.b` and `view.c`. -/
def Nadir.a (n : Nadir) : ℝ := n.uy - n.ly
def Nadir.b (n : Nadir) : ℝ := n.lx - n.ux
def Nadir.c (n : Nadir) : ℝ := n.ly * n.ux - n.lx * n.uy

/-- sunview-ll.c:309-310: `view.ab`. -/
def Nadir.ab (n : Nadir) : ℝ := √(n.a * n.a + n.b * n.b)

/-- sunview-ll.c:358-359: `dist` in column `x` and row `y`. If `ab` is zero, it is not a number in the program: the zenith angle is set to
zero (363) and the comparison is false (366), as for zero here. -/
def Nadir.dist (n : Nadir) (x y : ℝ) : ℝ := (n.a * x + n.b * y + n.c) / n.ab

/-- sunview-ll.c:362: `zen`. -/
def viewZenith (H res dist : ℝ) : ℝ := arccos (H / √(H * H + res * dist * res * dist))

/-- sunview-ll.c:298-299: `geo_angle_nadir` for the differences `dx` and `dy`; `atan2(dy, dx)` is the argument of the complex number. -/
def nadirAngle (dx dy : ℝ) : ℝ := Complex.arg ⟨dx, dy⟩ + π / 2

/-- sunview-ll.c:370: the loop; the first argument bounds the number of iterations. -/
def up : ℕ → ℝ → ℝ
  | 0, x => x
  | n + 1, x => if x < 0 then up n (x + 2 * π) else x

/-- sunview-ll.c:366-371: `azi`. -/
def viewAzimuth (angle dist : ℝ) : ℝ :=
  if dist > 0 then angle + π / 2 else up ⌈-(angle - π / 2) / (2 * π)⌉₊ (angle - π / 2)

/-- Corner and resolution of an image. -/
structure Geo where
  ulx : ℝ
  uly : ℝ
  res : ℝ

/-- brick_base-cl.c:1672-1685 `get_brick_geo` (1624-1627 `get_brick_x`, 1658-1661 `get_brick_y`: `_GT_RES_` is the positive
resolution, enum-cl.h:62-64); `warp` is `warp_any_to_geo`. -/
def brickGeo (warp : ℝ × ℝ → ℝ × ℝ) (g : Geo) (j i : ℝ) : ℝ × ℝ := warp (g.ulx + j * g.res, g.uly + i * g.res)

/-- sunview-ll.c:287-299 of `viewgeo`: `geo_angle_nadir`. -/
def geoAngle (warp : ℝ × ℝ → ℝ × ℝ) (g : Geo) (n : Nadir) : ℝ :=
  let u := brickGeo warp g n.ux n.uy
  let l := brickGeo warp g n.lx n.ly
  nadirAngle (u.1 - l.1) (l.2 - u.2)

/-- sunview-ll.c:342-371 of `view_angle` for Landsat (the height is 705000, 161): zenith and azimuth in column `x` and row `y` of the image
(`f/rres`, `e/rres`). -/
def viewAngle (warp : ℝ × ℝ → ℝ × ℝ) (g : Geo) (n : Nadir) (x y : ℝ) : ℝ × ℝ :=
  let dist := n.dist x y
  (viewZenith 705000 g.res dist, viewAzimuth (geoAngle warp g n) dist)

/-! ## Sun -/

/-- sunview-ll.c:174-185: the location for which the sun angles of the coarse cell in row `e` and column `f` are computed. -/
def sunLocation (warp : ℝ × ℝ → ℝ × ℝ) (g : Geo) (e f : Nat) : ℝ × ℝ := brickGeo warp { g with res := 5000 } f e

end

/-- sunview-ll.c:210-220: is the flag of low sun of pixel `p` set? `zen` are the zenith angles of the coarse grid. -/
def lowsun (rd : ℚ → ℚ) (src dst : Brick.Grid) (off : ℤ → Bool) (zen : ℤ → ℚ) (p : ℤ) : Bool :=
  if off p then false else decide (zen (Brick.p2p rd src dst p) > 1308997 / 1000000)

/-! ## Sentinel-2 -/

/-- sunview-ll.c:352 and 381-385: the rows (or columns) of a coarse cell that are set `off`; `flt` rounds to `float`, `n` is the number of rows of
the image (384-385). -/
def cellRows (flt : ℚ → ℚ) (res : ℚ) (e : Nat) (n : ℤ) (i : ℤ) : Prop :=
  let rres := flt (res / 5000)
  Index.truncQ (flt (e / rres)) ≤ i ∧ (i : ℚ) < flt ((e + 1) / rres) ∧ i ≤ n - 1

/-- sunview-ll.c:375-389: is the pixel in row `i` and column `j` set `off`? `missing e f`: the angles of the cell are nodata. -/
def setOff (flt : ℚ → ℚ) (res : ℚ) (ny nx : ℤ) (missing : Nat → Nat → Prop) (i j : ℤ) : Prop :=
  ∃ e f, missing e f ∧ cellRows flt res e ny i ∧ cellRows flt res f nx j

end Verif.View
