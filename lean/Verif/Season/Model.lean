import Verif.Date.Model

/-!
# Model of the temporal window

`src/modules/higher-level/param-hl.c` 1050-1076, `src/modules/higher-level/read-ard-hl.c` 375-393,
`src/modules/higher-level/tsa-hl.c` 503-538.

The arrays `date_doys[366]`, `date_weeks[53]`, `date_months[13]`, `date_quarters[5]` (param-hl.h:434-437)
are functions of the index. They are all false at first (allocated with `calloc`).
-/

namespace Verif.Season

/-- `a[i] = true`. -/
def setTrue (a : Int → Bool) (i : Int) : Int → Bool := fun j => if j = i then true else a j

/-- `for (d=lo; d<lo+n; d++) a[d] = true`. -/
def fillRange (lo : Int) : Nat → (Int → Bool) → (Int → Bool)
  | 0, a => a
  | n + 1, a => fillRange (lo + 1) n (setTrue a lo)

/-- param-hl.c:1056-1061: `date_doys`. -/
def doys (lo hi : Int) : Int → Bool :=
  if lo < hi then fillRange lo (hi - lo + 1).toNat fun _ => false
  else fillRange lo (365 - lo + 1).toNat (fillRange 1 hi.toNat fun _ => false)

/-- param-hl.c:1063-1071: the loop over the days `d .. d+n-1` that flags the period `period d` of each
selected day. -/
def flagLoop (period : Int → Int) (sel : Int → Bool) (d : Int) : Nat → (Int → Bool) → (Int → Bool)
  | 0, a => a
  | n + 1, a =>
    flagLoop period sel (d + 1) n (if !sel d then a else setTrue a (period d))

/-- param-hl.c:1063-1071 for one of the arrays. -/
def flags (period : Int → Int) (sel : Int → Bool) : Int → Bool :=
  flagLoop period sel 1 365 fun _ => false

/-- param-hl.c:1073-1076: `for (d=lo; d<lo+n; d++) sum += a[d]`. -/
def sumLoop (a : Int → Bool) (lo : Int) : Nat → Int → Int
  | 0, s => s
  | n + 1, s => sumLoop a (lo + 1) n (s + if a lo then 1 else 0)

/-- The complete window: days, weeks, months, quarters and their numbers. -/
structure Window where
  days : Int → Bool
  weeks : Int → Bool
  months : Int → Bool
  quarters : Int → Bool
  nd : Int
  nw : Int
  nm : Int
  nq : Int

/-- param-hl.c:1050-1076 (the data are ARD or QAI, the range is positive). -/
def window (lo hi : Int) : Window :=
  let days := doys lo hi
  let weeks := flags Date.doy2week days
  let months := flags Date.doy2m days
  let quarters := flags Date.doy2quarter days
  { days := days, weeks := weeks, months := months, quarters := quarters,
    nd := sumLoop days 1 365 0, nw := sumLoop weeks 1 52 0, nm := sumLoop months 1 12 0,
    nq := sumLoop quarters 1 4 0 }

/-- tsa-hl.c:505-540 `while (k < N+1 && !a[k]) k++`; `n` is the distance of `k` to `N+1`. -/
def advance (a : Int → Bool) (k : Int) : Nat → Int
  | 0 => k
  | n + 1 => if !a k then advance a (k + 1) n else k

/-- tsa-hl.c:504-538: the labels `k` of the folded layers; `N` is the number of periods of the year,
`t` layers remain. -/
def labelLoop (a : Int → Bool) (N : Int) : Nat → Int → List Int
  | 0, _ => []
  | t + 1, k =>
    let k' := advance a k (N + 1 - k).toNat
    k' :: labelLoop a N t (k' + 1)

def labels (a : Int → Bool) (N : Int) (n : Int) : List Int := labelLoop a N n.toNat 1

/-- read-ard-hl.c:384-390: is an image of this date used? `lnd07`: the file name contains LND07. -/
def keepImage (dmin dmax ignore : Date.DateT) (days : Int → Bool) (date : Date.DateT) (lnd07 : Bool) :
    Bool :=
  if date.ce < dmin.ce then false
  else if date.ce > dmax.ce then false
  else if !days date.doy then false
  else if lnd07 && decide (date.ce > ignore.ce) then false
  else true

end Verif.Season
