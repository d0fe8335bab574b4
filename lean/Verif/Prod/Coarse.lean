import Verif.Prod.Equal
import Verif.Str.Model
import Mathlib.Data.Rat.Floor
import Mathlib.Algebra.Order.Field.Basic

/-!
# Model of the interpolation of the coarse atmospheric parameters

`interpolation_weights` and `interpolate_coarse` (atmo-ll.c:60-173). The parameters of the atmospheric correction
are known for cells of 5 km; the weights are derived once per pixel from the grid of the view zenith angles, and
then used for all parameters.

Simplifications: exact arithmetic, except for the test for nodata (`fequal`, see Equal). A grid is the list of its
cells, row by row; an access outside of the list is undefined behaviour.
-/

namespace Verif.Prod

open Verif.Str (Out)

/-- atmo-ll.c:82-83: the position of a pixel, in coarse cells. -/
def position (k : Nat) (fullRes res : ℚ) : ℚ := k * fullRes / res

/-- atmo-ll.c:85-91: the neighbouring cells in one direction, `n` cells in total. -/
def near (n : Int) (x : ℚ) : Int × Int :=
  let f := ⌊x⌋
  let l := if x - f < 1 / 2 then f - 1 else f
  let r := if x - f < 1 / 2 then f else f + 1
  (if l < 0 then f else l, if r ≥ n then f else r)

/-- atmo-ll.c:109-120, 123-133, 135-145: the weights of two neighbours at `l` and `r` and whether one of them is valid.
The last flag is not used for the third pair. -/
def pair (l r : Int) (x : ℚ) (vl vr : Bool) : ℚ × ℚ × Bool :=
  let cl : ℚ := l + 1 / 2
  let cr : ℚ := r + 1 / 2
  if l = r then (1 / 2, 1 / 2, true)
  else if vl && vr then ((cr - x) / (cr - cl), (x - cl) / (cr - cl), true)
  else if vl && !vr then (1, 0, true)
  else if !vl && vr then (0, 1, true)
  else (0, 0, false)

/-- Reading a cell of a coarse grid. -/
def cellAt (c : List ℚ) (g : Int) : Out ℚ :=
  if g < 0 then .ub else match c[g.toNat]? with
    | some v => .ok v
    | none => .ub

/-- The structure `iweights_t`. -/
structure Weights where
  gul : Int
  gur : Int
  gll : Int
  glr : Int
  wul : ℚ
  wur : ℚ
  wll : ℚ
  wlr : ℚ
  wtop : ℚ
  wdown : ℚ

/-- atmo-ll.c:72-152 `interpolation_weights`, from the position in coarse cells. -/
def interpolationWeights (fl : ℚ → ℚ) (nf ne : Int) (coarse : List ℚ) (nodata : ℚ) (y x : ℚ) : Out Weights :=
  let h := near nf x
  let v := near ne y
  let gul := v.1 * nf + h.1
  let gur := v.1 * nf + h.2
  let gll := v.2 * nf + h.1
  let glr := v.2 * nf + h.2
  (cellAt coarse gul).bind fun ul => (cellAt coarse gur).bind fun ur =>
  (cellAt coarse gll).bind fun ll => (cellAt coarse glr).bind fun lr =>
    let top := pair h.1 h.2 x (!fequal fl ul nodata) (!fequal fl ur nodata)
    let down := pair h.1 h.2 x (!fequal fl ll nodata) (!fequal fl lr nodata)
    let vert := pair v.1 v.2 y top.2.2 down.2.2
    .ok { gul, gur, gll, glr, wul := top.1, wur := top.2.1, wll := down.1, wlr := down.2.1, wtop := vert.1, wdown := vert.2.1 }

/-- atmo-ll.c:163-173 `interpolate_coarse`. -/
def interpolateCoarse (w : Weights) (c : List ℚ) : Out ℚ :=
  (cellAt c w.gul).bind fun ul => (cellAt c w.gur).bind fun ur =>
  (cellAt c w.gll).bind fun ll => (cellAt c w.glr).bind fun lr =>
    .ok (w.wtop * (w.wul * ul + w.wur * ur) + w.wdown * (w.wll * ll + w.wlr * lr))

/-- atmo-ll.c:280-281: both steps; `vz` is the grid of the view zenith angles, `c` the grid of a parameter. -/
def smoothed (fl : ℚ → ℚ) (nf ne : Int) (vz : List ℚ) (nodata : ℚ) (c : List ℚ) (y x : ℚ) : Out ℚ :=
  (interpolationWeights fl nf ne vz nodata y x).bind fun w => interpolateCoarse w c

end Verif.Prod
