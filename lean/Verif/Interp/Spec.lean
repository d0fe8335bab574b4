import Mathlib.Data.Rat.Floor

/-!
# Specification of the interpolation methods
-/

namespace Verif.Interp.Spec

/-- The valid observations of a time series (date, value). -/
def valid (nodata : Int) (series : List (Int × Int)) : List (Int × Int) :=
  series.filter fun o => o.2 ≠ nodata

/-- What linear interpolation has to use for a date. -/
inductive Nbs where
  | exact (y : Int)
  | between (xl yl xr yr : Int)
  | only (y : Int)
  | none
deriving DecidableEq

/-- The observation at the date; else the last one before and the first one after. -/
def neighbours (obs : List (Int × Int)) (x : Int) : Nbs :=
  match obs.find? (fun o => o.1 = x) with
  | some o => .exact o.2
  | .none =>
    match (obs.filter fun o => o.1 < x).getLast?, obs.find? (fun o => o.1 > x) with
    | some l, some r => .between l.1 l.2 r.1 r.2
    | some l, .none => .only l.2
    | .none, some r => .only r.2
    | .none, .none => .none

/-- The observations at most `m` days away. -/
def window (obs : List (Int × Int)) (x m : Int) : List (Int × Int) :=
  obs.filter fun o => |o.1 - x| ≤ m

end Verif.Interp.Spec
