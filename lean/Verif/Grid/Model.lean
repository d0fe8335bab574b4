import Verif.Brick.Model
import Verif.Str.Model

/-!
The coarse grid of the atmospheric correction: src/modules/lower-level/atc-ll.c `init_atc_xy`.
-/

namespace Verif.Grid

open Verif.Str (Out)

/-- atc-ll.c:169-175: number of cells in one direction, for `n` pixels with resolution `res`. The width of the image is the
rounded product (brick_base-cl.c:1211, 1579), the quotient of doubles is rounded. -/
def cells (rd : ℚ → ℚ) (n : ℤ) (res : ℚ) : ℤ := ⌈rd (rd ((n : ℚ) * res) / 5000)⌉

/-- atc-ll.c:167-196 of `init_atc_xy`: the grid of the bricks with the parameters of the cells. A product that is no `int` is
undefined; the program ends if there are more than USHRT_MAX cells. The bricks (atc-ll.c:185-237) all have this grid. -/
def coarse (rd : ℚ → ℚ) (nx ny : ℤ) (res : ℚ) : Out Verif.Brick.Grid :=
  let gx := cells rd nx res
  let gy := cells rd ny res
  if gx * gy > 2147483647 then .ub
  else if gx * gy > 65535 then .exit
  else .ok ⟨gx, gy, 5000⟩

end Verif.Grid
