import Verif.Date.Model

/-!
# Specification of the temporal window
-/

namespace Verif.Season.Spec

/-- The season from day `lo` to day `hi`; it extends over the end of the year if `hi` is before `lo`. -/
def InSeason (lo hi d : Int) : Prop :=
  if lo ≤ hi then lo ≤ d ∧ d ≤ hi else (lo ≤ d ∧ d ≤ 365) ∨ (1 ≤ d ∧ d ≤ hi)

/-- All days or periods from `a` on, `n` of them. -/
def interval (a : Int) (n : Nat) : List Int := (List.range n).map fun i : Nat => a + i

end Verif.Season.Spec
