import Verif.Date.Spec
import Verif.Date.Model

/-!
# Specification of the clear-sky observation windows and gaps
-/

namespace Verif.Cso.Spec

/-- Month number, counted from year 0. -/
def monthNo (y m : Int) : Int := 12 * y + m

/-- Day number (365-day years) of the first day of a month. -/
def monthStart (k : Int) : Int := 365 * ((k - 1) / 12) + Date.Spec.dayOfYear ((k - 1) % 12 + 1) 1

/-- Differences between neighbours. -/
def diffs : List Int → List Int
  | x :: y :: l => (y - x) :: diffs (y :: l)
  | _ => []

/-- Days without observation in the window `[a, b)` with clear-sky observations on the days `ds`: the differences
between consecutive days, including both edges of the window; several observations on the same day, or one
on the first day, make no gap. -/
def gaps (a b : Int) (ds : List Int) : List Int := (diffs (a :: ds ++ [b])).filter (0 < ·)

/-- Dates of the valid observations in `[a, b)`. -/
def clear (a b : Int) (os : List (Bool × Int)) : List Int :=
  (os.filter fun o => o.1 && decide (a ≤ o.2) && decide (o.2 < b)).map (·.2)

end Verif.Cso.Spec
