/-!
# Calendar specification

The calendar FORCE documents: every year has 365 days (leap years are ignored).
Independent of the model.
-/

namespace Verif.Date.Spec

/-- Number of days of each month, January first. -/
def monthLengths : List Int := [31, 28, 31, 30, 31, 30, 31, 31, 30, 31, 30, 31]

/-- Length of month `m` (1..12). -/
def monthLength (m : Int) : Int := monthLengths.getD (m - 1).toNat 0

/-- A valid (month, day) pair. -/
def ValidMD (m d : Int) : Prop := 1 ≤ m ∧ m ≤ 12 ∧ 1 ≤ d ∧ d ≤ monthLength m

/-- Day of the year: days of all earlier months, plus the day. -/
def dayOfYear (m d : Int) : Int := (monthLengths.take (m - 1).toNat).sum + d

/-- Week of the year: weeks of seven days counted from 1 January, the last days of the
year belong to week 52. -/
def week (doy : Int) : Int := min 52 ((doy - 1) / 7 + 1)

/-- Quarter of a month. -/
def quarter (m : Int) : Int := (m - 1) / 3 + 1

/-- Chronological order of (year, month, day). -/
def Before (y m d y' m' d' : Int) : Prop :=
  y < y' ∨ (y = y' ∧ (m < m' ∨ (m = m' ∧ d < d')))

end Verif.Date.Spec
