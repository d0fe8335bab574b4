/-!
# Model of the date functions

Models `/repo/src/modules/cross-level/date-cl.c` and parts of
`/repo/src/modules/cross-level/datesys-cl.c`.

C `int` is modelled as `Int`. Overflow is excluded by
`Verif.Date.ce_fits_int32` for all years the program can meet.
`floor(ce/365.0)` in double precision is modelled as the exact floor: for 32-bit
numerators the double division and floor are exact (`Verif.Date.c02_double_floor_exact`).
-/

namespace Verif.Date

/-- date-cl.c:45-74 `doy2md`. Returns (month, day). -/
def doy2md (doy : Int) : Int × Int :=
  if doy > 334 then (12, doy - 334)
  else if doy > 304 then (11, doy - 304)
  else if doy > 273 then (10, doy - 273)
  else if doy > 243 then (9, doy - 243)
  else if doy > 212 then (8, doy - 212)
  else if doy > 181 then (7, doy - 181)
  else if doy > 151 then (6, doy - 151)
  else if doy > 120 then (5, doy - 120)
  else if doy > 90 then (4, doy - 90)
  else if doy > 59 then (3, doy - 59)
  else if doy > 31 then (2, doy - 31)
  else (1, doy)

/-- date-cl.c:83-111 `doy2m`. -/
def doy2m (doy : Int) : Int :=
  if doy > 334 then 12
  else if doy > 304 then 11
  else if doy > 273 then 10
  else if doy > 243 then 9
  else if doy > 212 then 8
  else if doy > 181 then 7
  else if doy > 151 then 6
  else if doy > 120 then 5
  else if doy > 90 then 4
  else if doy > 59 then 3
  else if doy > 31 then 2
  else 1

/-- date-cl.c:120-148 `doy2d`. -/
def doy2d (doy : Int) : Int :=
  if doy > 334 then doy - 334
  else if doy > 304 then doy - 304
  else if doy > 273 then doy - 273
  else if doy > 243 then doy - 243
  else if doy > 212 then doy - 212
  else if doy > 181 then doy - 181
  else if doy > 151 then doy - 151
  else if doy > 120 then doy - 120
  else if doy > 90 then doy - 90
  else if doy > 59 then doy - 59
  else if doy > 31 then doy - 31
  else doy

/-- date-cl.c:157-177 `md2doy`. -/
def md2doy (m d : Int) : Int :=
  if m = 1 then d
  else if m = 2 then 31 + d
  else if m = 3 then 59 + d
  else if m = 4 then 90 + d
  else if m = 5 then 120 + d
  else if m = 6 then 151 + d
  else if m = 7 then 181 + d
  else if m = 8 then 212 + d
  else if m = 9 then 243 + d
  else if m = 10 then 273 + d
  else if m = 11 then 304 + d
  else if m = 12 then 334 + d
  else 0

/-- date-cl.c:186-190 `doy2week`: `ceil(doy/7.0)`, capped at 52. The ceiling is
written as the negated floor of the negated numerator. -/
def doy2week (doy : Int) : Int :=
  if -((-doy) / 7) > 52 then 52 else -((-doy) / 7)

/-- date-cl.c:199-202 `week2doy`. -/
def week2doy (week : Int) : Int := (week - 1) * 7 + 1

/-- date-cl.c:223-228 `m2quarter`: `ceil(month/3.0)`. -/
def m2quarter (month : Int) : Int := -((-month) / 3)

/-- date-cl.c:209-216 `doy2quarter`. -/
def doy2quarter (doy : Int) : Int := m2quarter (doy2md doy).1

/-- date-cl.c:235-239 `quarter2doy`. -/
def quarter2doy (q : Int) : Int := md2doy ((q - 1) * 3 + 1) 1

/-- date-cl.c:249-252 `date2ce`. -/
def date2ce (y m d : Int) : Int := y * 365 + md2doy m d

/-- date-cl.c:261-264 `doy2ce`. -/
def doy2ce (doy y : Int) : Int := y * 365 + doy

/-- date-cl.c:275-291 `ce2date`. Returns (year, month, day). -/
def ce2date (ce : Int) : Int × Int × Int :=
  let year := ce / 365
  let tmp := ce - year * 365
  if tmp = 0 then (year - 1, 12, 31) else (year, (doy2md tmp).1, (doy2md tmp).2)

/-- date-cl.c:301-316 `ce2doy`. Returns (day-of-year, year). -/
def ce2doy (ce : Int) : Int × Int :=
  let year := ce / 365
  let tmp := ce - year * 365
  if tmp = 0 then (365, year - 1) else (tmp, year)

/-- date-cl.c:323-332 `ce2year`. -/
def ce2year (ce : Int) : Int :=
  let year := ce / 365
  let tmp := ce - year * 365
  if tmp = 0 then year - 1 else year

/-- date-cl.h:44-56 `date_t`. -/
structure DateT where
  ce : Int
  day : Int
  doy : Int
  week : Int
  month : Int
  quarter : Int
  year : Int
  hh : Int
  mm : Int
  ss : Int
  tz : Int
deriving DecidableEq, Repr

/-- date-cl.c:396-411 `init_date`. -/
def initDate : DateT := ⟨0, 0, 0, 0, 0, 0, 0, 0, 0, 0, 0⟩

/-- date-cl.c:435-441 `set_date_year`. -/
def setYear (date : DateT) (year : Int) : DateT :=
  let date := { date with year := year }
  { date with ce := doy2ce date.doy date.year }

/-- date-cl.c:450-460 `set_date_month_day`. -/
def setMonthDay (date : DateT) (month day : Int) : DateT :=
  let date := { date with month := month }
  let date := { date with day := day }
  let date := { date with doy := md2doy date.month date.day }
  let date := { date with week := doy2week date.doy }
  let date := { date with quarter := doy2quarter date.doy }
  { date with ce := doy2ce date.doy date.year }

/-- date-cl.c:421-427 `set_date`. -/
def setDate (date : DateT) (year month day : Int) : DateT :=
  setMonthDay (setYear date year) month day

/-- date-cl.c:468-475 `set_date_ce`. -/
def setCe (date : DateT) (ce : Int) : DateT :=
  let r := ce2date ce
  setDate date r.1 r.2.1 r.2.2

/-- date-cl.c:483-490 `set_date_doy`. -/
def setDoy (date : DateT) (doy : Int) : DateT :=
  let r := doy2md doy
  setMonthDay date r.1 r.2

/-- date-cl.c:498-505 `set_date_week`. -/
def setWeek (date : DateT) (week : Int) : DateT := setDoy date (week2doy week)

/-- date-cl.c:513-520 `set_date_month`. -/
def setMonth (date : DateT) (month : Int) : DateT := setDoy date (md2doy month 1)

/-- date-cl.c:528-535 `set_date_quarter`. -/
def setQuarter (date : DateT) (quarter : Int) : DateT := setDoy date (quarter2doy quarter)

/-- date-cl.c:545-552 `set_time`. -/
def setTime (date : DateT) (hh mm ss : Int) : DateT :=
  { date with hh := hh, mm := mm, ss := ss }

/-- date-cl.c:560-583 `set_secs`. `floor` of a double quotient is the exact floor
division. -/
def setSecs (date : DateT) (secs : Int) : DateT :=
  let y := if secs ≥ 946080000 then secs / 946080000 else 0
  let secs := if secs ≥ 946080000 then secs - y * 946080000 else secs
  let m := if secs ≥ 2592000 then secs / 2592000 else 0
  let secs := if secs ≥ 2592000 then secs - m * 2592000 else secs
  let d := if secs ≥ 86400 then secs / 86400 else 0
  let secs := if secs ≥ 86400 then secs - d * 86400 else secs
  let hh := if secs ≥ 3600 then secs / 3600 else 0
  let secs := if secs ≥ 3600 then secs - hh * 3600 else secs
  let mm := if secs ≥ 60 then secs / 60 else 0
  let secs := if secs ≥ 60 then secs - mm * 60 else secs
  setTime (setDate date y m d) hh mm secs

/-- datesys-cl.c:93-110 `date_plus` and datesys-cl.c:120-136 `date_minus`: both write
the broken-down time delivered by `mktime` (libc, a parameter `tm` here: year, month,
day of the neighbouring day in the local Gregorian calendar) into the record, and
recompute day-of-year, week and continuous day, but not the quarter. -/
def dateStep (tm : Int × Int × Int → Int × Int × Int) (date : DateT) : DateT :=
  let r := tm (date.year, date.month, date.day)
  let date := { date with year := r.1, month := r.2.1, day := r.2.2 }
  let date := { date with doy := md2doy date.month date.day }
  let date := { date with week := doy2week date.doy }
  { date with ce := doy2ce date.doy date.year }

/-- datesys-cl.c:162-167 `date_order`: FAILURE (`false`) iff the first date is later. -/
def dateOrder (early late : DateT) : Bool := !(early.ce > late.ce)

/-! ## `date_from_string` -/

/-- The separators of date-cl.c:619. -/
def isSep (c : Char) : Bool :=
  c = ' ' || c = ',' || c = ';' || c = '-' || c = '_' || c = '.'

/-- The characters at which the line is cut, date-cl.c:625. -/
def isCut (c : Char) : Bool := c = '\r' || c = '\n' || c = '#'

/-- First token of `strtok_r` (libc), date-cl.c:627: skip separators, take up to the
next one; `none` is the NULL pointer. -/
def firstToken (s : List Char) : Option (List Char) :=
  match s.dropWhile isSep with
  | [] => none
  | c :: cs => some ((c :: cs).takeWhile (fun c => !isSep c))

/-- libc `isspace` in the C locale (used by `atoi`). -/
def isSpace (c : Char) : Bool :=
  c = ' ' || c = '\t' || c = '\n' || c = '\x0b' || c = '\x0c' || c = '\r'

/-- libc: value of a run of decimal digits, stops at the first other character. -/
def digitsVal (acc : Int) : List Char → Int
  | [] => acc
  | c :: cs => if c.isDigit then digitsVal (acc * 10 + ((c.toNat : Int) - 48)) cs else acc

/-- libc `atoi` (the arguments here have at most 4 characters, so no overflow). -/
def atoi (s : List Char) : Int :=
  match s.dropWhile isSpace with
  | '-' :: cs => -digitsVal 0 cs
  | '+' :: cs => digitsVal 0 cs
  | cs => digitsVal 0 cs

/-- Possible outcomes of `date_from_string`. -/
inductive Outcome where
  /-- program terminated by `copy_string` (string-cl.c:42-51) -/
  | exit
  /-- undefined behaviour (`strlen(NULL)`) -/
  | ub
  /-- return value CANCEL, and the caller's record afterwards -/
  | cancel (date : DateT)
  /-- return value SUCCESS, and the caller's record afterwards -/
  | success (date : DateT)
deriving DecidableEq, Repr

/-- date-cl.c:647-652, the range checks. -/
def rangeOk (d : DateT) : Bool :=
  !(d.year < 1900 || d.year > 2100) &&
  !(d.month < 1 || d.month > 12) &&
  !(d.day < 1 || d.day > 31) &&
  !(d.doy < 1 || d.doy > 365) &&
  !(d.week < 1 || d.week > 52) &&
  !(d.ce < 1900 * 365 || d.ce > 2100 * 365)

/-- date-cl.c:616-661 `date_from_string`. `date` is the content of the caller's record
before the call. Strings are lists of characters other than NUL. -/
def dateFromString (date : DateT) (string : List Char) : Outcome :=
  if string.length ≥ 1024 then .exit
  else
    match firstToken (string.takeWhile (fun c => !isCut c)) with
    | none => .ub
    | some ptr =>
      if ptr.length ≠ 8 then .cancel initDate
      else
        let d := setDate initDate (atoi (ptr.take 4)) (atoi ((ptr.drop 4).take 2))
          (atoi ((ptr.drop 6).take 2))
        if rangeOk d then .success d else .cancel date

end Verif.Date
