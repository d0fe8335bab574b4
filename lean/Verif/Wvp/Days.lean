import Verif.Date.Model
import Verif.Libc.Model

/-!
# Days of the water vapour database: model

The loop over days of `force-lut-modis` (src/main/lower-level/force-lut-modis.c), with
`date_plus` (src/modules/cross-level/datesys-cl.c) and the parts of libc it uses.
-/

namespace Verif.Wvp

open Verif.Date (setDate initDate)

/-- Year, month and day of `date_t` (the parts that the loop looks at). -/
structure Day where
  y : Int
  m : Int
  d : Int
deriving DecidableEq, Repr

/-- Leap years of the Gregorian calendar (libc `mktime`). -/
def leap (y : Int) : Bool := (y % 4 = 0 && y % 100 ≠ 0) || y % 400 = 0

/-- Days of the months (libc `mktime`). -/
def dim (y m : Int) : Int :=
  if m = 2 then (if leap y then 29 else 28)
  else if m = 4 ∨ m = 6 ∨ m = 9 ∨ m = 11 then 30
  else 31

/-- libc `mktime`, carry of the days: days of at most one month are carried (enough for
days between 0 and 32). -/
def carry (a : Day) : Day :=
  if a.d > dim a.y a.m then
    (if a.m = 12 then ⟨a.y + 1, 1, a.d - 31⟩ else ⟨a.y, a.m + 1, a.d - dim a.y a.m⟩)
  else if a.d < 1 then
    (if a.m = 1 then ⟨a.y - 1, 12, a.d + 31⟩ else ⟨a.y, a.m - 1, a.d + dim a.y (a.m - 1)⟩)
  else a

/-- Broken-down local time, as far as it is needed: date, hour, and whether daylight saving
time is in effect. -/
structure Tm where
  day : Day
  hour : Int
  isdst : Bool
deriving DecidableEq, Repr

/-- libc `mktime` in a time zone where daylight saving time is one hour: the hour is taken
as standard or daylight saving time according to `isdst`, and the result is given in the
time that is in effect; `dst a h` is whether daylight saving time is in effect at hour `h`
(standard time) of day `a`. Minutes and seconds are not changed and not modelled. -/
def mktime (dst : Day → Int → Bool) (t : Tm) : Tm :=
  let h := if t.isdst then t.hour - 1 else t.hour
  let a := carry (if h < 0 then { t.day with d := t.day.d - 1 } else t.day)
  let h := if h < 0 then h + 24 else h
  let s := dst a h
  let l := if s then h + 1 else h
  if l ≥ 24 then ⟨carry { a with d := a.d + 1 }, l - 24, s⟩ else ⟨a, l, s⟩

/-- datesys-cl.c:70-83 `date_set`: the current local time (`now`) with another date. -/
def dateSet (dst : Day → Int → Bool) (now : Int × Bool) (a : Day) : Tm :=
  mktime dst ⟨a, now.1, now.2⟩

/-- datesys-cl.c:93-110 `date_plus`. -/
def datePlus (dst : Day → Int → Bool) (now : Int × Bool) (a : Day) : Day :=
  let t := dateSet dst now a
  (mktime dst { t with day := { t.day with d := t.day.d + 1 } }).day

/-- force-lut-modis.c:229-260, the loop over the days (and 285-314, the same loop for the
climatology): the days that are processed; `none` if the loop has not ended after the given
number of rounds. `now k` is the hour of the local time, and whether daylight saving time
is in effect, when day `k` is incremented. -/
def loop (dst : Day → Int → Bool) (now : Nat → Int × Bool) (last : Day) : Nat → Nat → Day → Option (List Day)
  | 0, _, _ => none
  | f + 1, k, a =>
    if a.y = last.y ∧ a.m = last.m ∧ a.d = last.d then some [a]
    else (loop dst now last f (k + 1) (datePlus dst (now k) a)).map (a :: ·)

/-- force-lut-modis.c:110-129, the date range, with datesys-cl.c:145-153 `date_overshoot`
and 162-167 `date_order`: `none` if it is refused. The day of the run is `today`. -/
def parseRange (today : Day) (s : List Char) : Option (Day × Day) :=
  if s.length ≠ 17 then none
  else
    let num (i n : Nat) := Verif.Date.atoi ((s.drop i).take n)
    let a := setDate initDate (num 0 4) (num 4 2) (num 6 2)
    let b := setDate initDate (num 9 4) (num 13 2) (num 15 2)
    let t := setDate initDate today.y today.m today.d
    if a.ce > t.ce ∨ b.ce > t.ce then none
    else if ¬ Verif.Date.dateOrder a b then none
    else some (⟨a.year, a.month, a.day⟩, ⟨b.year, b.month, b.day⟩)

end Verif.Wvp
