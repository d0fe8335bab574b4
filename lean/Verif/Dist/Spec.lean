import Verif.Dist.Model
import Mathlib.Analysis.Real.Sqrt
import Verif.Float

/-!
# Specification of the distance transform
-/

namespace Verif.Dist.Spec

/-- Squared Euclidean distance of two pixels (rows `y`, `b`, columns `x`, `a`). -/
def dist2 (y x b a : Nat) : Int := ((x : Int) - a) ^ 2 + ((y : Int) - b) ^ 2

/-- `r` is the integer part of the distance of pixel `(y, x)` to the nearest TRUE pixel: no TRUE pixel is
closer than `r`, and some TRUE pixel is closer than `r + 1`. -/
def IsDistance (nx ny : Nat) (img : Bin) (y x r : Nat) : Prop :=
  (∀ b a, b < ny → a < nx → img b a = true → (r : Int) ^ 2 ≤ dist2 y x b a) ∧
  ∃ b a, b < ny ∧ a < nx ∧ img b a = true ∧ dist2 y x b a < ((r : Int) + 1) ^ 2

/-- `r` is a `double` nearest to the square root of `d`. -/
def SqrtDouble (d : Nat) (r : ℚ) : Prop :=
  Verif.Float.Rep 53 r ∧ ∀ f : ℚ, Verif.Float.Rep 53 f → |Real.sqrt d - r| ≤ |Real.sqrt d - f|

end Verif.Dist.Spec
