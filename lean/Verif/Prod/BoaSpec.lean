import Mathlib.Data.Rat.Defs
import Mathlib.Algebra.Order.Field.Rat
import Mathlib.Algebra.Order.Ring.Abs

/-!
# Specification of the reflectance product
-/

namespace Verif.Prod.Spec

/-- `v` is the reflectance `r` times 10000, as an integer without the fractional part, at most 32767. -/
def Scaled (r : ℚ) (v : Int) : Prop :=
  (32767 < 10000 * r ∧ v = 32767) ∨
    (10000 * r ≤ 32767 ∧ |(v : ℚ)| ≤ |10000 * r| ∧ |10000 * r| < |(v : ℚ)| + 1 ∧ 0 ≤ (v : ℚ) * (10000 * r))

/-- The order of the bands in the Level 2 product. -/
def order : List String :=
  ["BLUE", "GREEN", "RED", "REDEDGE1", "REDEDGE2", "REDEDGE3", "BROADNIR", "NIR", "SWIR1", "SWIR2"]

/-- The bands `dom` of the Level 1 data come in the order of the Level 2 product (with others in between). -/
def InOrder (dom : List String) : Prop :=
  ∀ (i j x y : Nat) (a b : String), i < j → dom[i]? = some a → dom[j]? = some b → order[x]? = some a → order[y]? = some b → x < y

end Verif.Prod.Spec
