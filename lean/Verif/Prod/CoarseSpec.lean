import Mathlib.Data.Rat.Defs
import Mathlib.Algebra.Order.Field.Rat
import Mathlib.Algebra.Order.Ring.Abs

/-!
# Specification of the interpolation between the cells of a coarse grid
-/

namespace Verif.Prod.Spec

/-- The position `x` (in cells, 0 is the left edge of the grid of `n` cells) lies between the centres of the cells `k`
and `k'`, which are neighbours or the same cell, at the fraction `t` of the way; positions beyond the outermost centres
belong to the outermost cell. The centre of cell `k` is at `k + 1/2`. -/
def Between (n : Nat) (x : ℚ) (k k' : Nat) (t : ℚ) : Prop :=
  k < n ∧ k' < n ∧ (k' = k ∨ k' = k + 1) ∧ 0 ≤ t ∧ t ≤ 1 ∧
    max 0 (min ((n : ℚ) - 1) (x - 1 / 2)) = (1 - t) * k + t * k'

/-- `v` is the bilinear interpolation of the cells `c` (row, column) at the position `(y, x)`. -/
def Bilinear (ne nf : Nat) (c : Nat → Nat → ℚ) (y x v : ℚ) : Prop :=
  ∃ l l' s k k' t, Between ne y l l' s ∧ Between nf x k k' t ∧
    v = (1 - s) * ((1 - t) * c l k + t * c l k') + s * ((1 - t) * c l' k + t * c l' k')

/-- The centre of cell `k` is at most one cell from the position `x`. -/
def Close (x : ℚ) (k : Nat) : Prop := |(k : ℚ) + 1 / 2 - x| ≤ 1

end Verif.Prod.Spec
