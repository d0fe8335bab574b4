import Verif.Brick.Model

/-!
# Specification for image bricks
-/

namespace Verif.Brick.Spec

/-- The value in row `r`, column `c` of a band with `nx` columns. -/
def at_ {V : Type} (band : List V) (nx r c : Nat) : Option V := band[r * nx + c]?

/-- `out` is the inner part of `band` (`nx` columns, `ny` rows), `pix` pixels away from each side. -/
def Cropped {V : Type} (nx ny pix : Nat) (band out : List V) : Prop :=
  out.length = (nx - 2 * pix) * (ny - 2 * pix) ∧
  ∀ r c, pix ≤ r → r + pix < ny → pix ≤ c → c + pix < nx →
    at_ out (nx - 2 * pix) (r - pix) (c - pix) = at_ band nx r c

/-- Pixel `(i, j)` of an image with resolution `res` spatially contains the point that is
`y` below and `x` right of the upper-left image corner. -/
def Contains (res : ℚ) (i j : ℤ) (y x : ℚ) : Prop :=
  i * res ≤ y ∧ y < (i + 1) * res ∧ j * res ≤ x ∧ x < (j + 1) * res

/-- The two images cover the same area. -/
def SameExtent (a b : Grid) : Prop := a.nx * a.res = b.nx * b.res ∧ a.ny * a.res = b.ny * b.res

/-- The last valid value of a history, nodata if there is none. -/
def lastValid (nodata : ℤ) (vs : List ℤ) : ℤ := ((vs.filter (· ≠ nodata)).getLast?).getD nodata

end Verif.Brick.Spec
