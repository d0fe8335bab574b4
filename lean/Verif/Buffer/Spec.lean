import Verif.Buffer.Model
import Mathlib.Algebra.Order.Group.Abs
import Mathlib.Algebra.Order.Ring.Int

/-!
# Specification of buffering and majority filling
-/

namespace Verif.Buffer.Spec

/-- Pixel in row `i`, column `j` of an image with `nx` columns. -/
def px (nx : Nat) (img : Int → Bool) (i j : Nat) : Bool := img (nx * i + j)

/-- Squared distance of two pixels. -/
def dist2 (i j i' j' : Nat) : Int := ((i : Int) - i') ^ 2 + ((j : Int) - j') ^ 2

/-- The pixel is at least `r` pixels away from the edge of the image. -/
def Inside (n r k : Nat) : Prop := r ≤ k ∧ k + r < n

/-- Pixel `q` (row, column) is in the image and is one of the 8 neighbours of pixel `p`. -/
def Neighbour (nx ny : Nat) (p q : Int × Int) : Prop :=
  (0 ≤ q.1 ∧ q.1 < ny) ∧ (0 ≤ q.2 ∧ q.2 < nx) ∧ |q.1 - p.1| ≤ 1 ∧ |q.2 - p.2| ≤ 1 ∧ q ≠ p

/-- The value of a pixel. -/
def val (nx : Nat) (img : Int → Bool) (q : Int × Int) : Bool := img (q.1 * nx + q.2)

/-- The pixel has at least `n` TRUE neighbours. -/
def Surrounded (nx ny : Nat) (img : Int → Bool) (n : Nat) (p : Int × Int) : Prop :=
  ∃ l : List (Int × Int), l.Nodup ∧ l.length = n ∧ ∀ q ∈ l, Neighbour nx ny p q ∧ val nx img q = true

end Verif.Buffer.Spec
