import Mathlib.Data.Real.Basic

/-! # Specification of the view geometry -/

namespace Verif.View.Spec

/-- A valid pixel (row, column) of an image. -/
def Valid (off : ℤ × ℤ → Bool) (ny nx : Nat) (q : ℤ × ℤ) : Prop :=
  off q = false ∧ (0 ≤ q.1 ∧ q.1 < ny) ∧ (0 ≤ q.2 ∧ q.2 < nx)

/-- `P` is the first in the given order. -/
def First (S : ℤ × ℤ → Prop) (before : ℤ × ℤ → ℤ × ℤ → Prop) (P : ℤ × ℤ) : Prop :=
  S P ∧ ∀ q, S q → q ≠ P → before P q

/-- `d` is the shortest distance of the point (`x`, `y`) to the line through (`ux`, `uy`) and (`lx`, `ly`). -/
def Distance (ux uy lx ly x y d : ℝ) : Prop :=
  0 ≤ d ∧ (∀ t : ℝ, d ^ 2 ≤ (x - (ux + t * (lx - ux))) ^ 2 + (y - (uy + t * (ly - uy))) ^ 2) ∧
  ∃ t : ℝ, d ^ 2 = (x - (ux + t * (lx - ux))) ^ 2 + (y - (uy + t * (ly - uy))) ^ 2

/-- The point (`x`, `y`) is on the line. -/
def OnLine (ux uy lx ly x y : ℝ) : Prop := (x - ux) * (ly - uy) = (y - uy) * (lx - ux)

end Verif.View.Spec
