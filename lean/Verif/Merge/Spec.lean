import Verif.Merge.Model

/-!
# Notions for the statements about the resolution merge
-/

namespace Verif.Merge.Spec

open Verif.Merge

/-- Sum of squared residuals. -/
noncomputable def sse (l : List Row) (c : Coef) : ℝ :=
  (l.map fun x => (x.y - (c.1 + c.2.1 * x.g + c.2.2.1 * x.r + c.2.2.2 * x.n)) ^ 2).sum

/-- A least-squares solver. -/
def LeastSquares (ls : List Row → Coef) : Prop := ∀ l c, sse l (ls l) ≤ sse l c

/-- The pixel at a row and a column. -/
def pix (m : Img) (i j : Nat) : Nat := i * m.nx + j

/-- A pixel of the image that is not off. -/
def Valid (m : Img) (i j : Nat) : Prop := i < m.ny ∧ j < m.nx ∧ m.off (pix m i j) = false

/-- At most `r` rows and columns apart. -/
def Near (r i j i' j' : Nat) : Prop := i ≤ i' + r ∧ i' ≤ i + r ∧ j ≤ j' + r ∧ j' ≤ j + r

/-- The pixels of the block of 2 x 2 pixels with the pixel. -/
noncomputable def blockMean (m : Img) (a : Nat → ℝ) (i j : Nat) : ℝ :=
  let l := (([(0, 0), (0, 1), (1, 0), (1, 1)] : List (Nat × Nat)).map fun c => (i / 2 * 2 + c.1, j / 2 * 2 + c.2)).filter
    fun c => decide (c.1 < m.ny ∧ c.2 < m.nx)
  (l.map fun c => a (pix m c.1 c.2)).sum / l.length

end Verif.Merge.Spec
