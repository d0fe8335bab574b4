import Mathlib.Data.Rat.Floor
import Verif.Date.Model
import Verif.Date.Spec

/-!
# Polarmetrics

Model of `src/modules/higher-level/polar-hl.c` without the averaged vectors (`atan2`, `cos`, `sin`) and without the
adaptive start of the year. The start of the phenological year, which the code derives from the average vector, is a
parameter. Values, thresholds, shares and integrals are exact rational numbers; the conversion between days and radians
keeps its roundings.
-/

namespace Verif.Polar

open Verif.Date

/-- One step of the interpolated time series of a pixel: `ts->d_tsi[i]` (`ce`, `doy`, `year`) and `ts->tsi_[i][p]`.
`src/modules/higher-level/tsa-hl.c` 483-497, `polar-hl.c` 371-416. -/
structure Step where
  ce : Int
  doy : Int
  year : Int
  v : Int
deriving DecidableEq, Repr

/-- Dates of the interpolated time series: every `step` days from the first day of the date range.
`tsa-hl.c` 483-497 (methods other than NONE). -/
def tsiDates (ce0 step : Int) (n : Nat) : List DateT :=
  (List.range n).map fun t : Nat => setCe initDate (ce0 + (t : Int) * step)

/-- Date and value of each step. `polar-hl.c` 371-416. -/
def mkSteps (dates : List DateT) (vs : List Int) : List Step :=
  List.zipWith (fun d v => ⟨d.ce, d.doy, d.year, v⟩) dates vs

/-- `INT_MIN`. -/
def intMin : Int := -2147483648

/-- Value of a step, and whether there is one: `pre` are the steps before it (nearest first), `post` the ones after it.
`polar-hl.c` 373-411. Simplified: `float` arithmetic is exact. -/
def fillValue (nodata : Int) (pre : List Step) (x : Step) (post : List Step) : ℚ × Bool :=
  if x.v = nodata then
    let l : Int × Int := match pre.find? fun y => y.v ≠ nodata with
      | some y => (y.ce, y.v)
      | none => (intMin, nodata)
    let r : Int × Int := match post.find? fun y => y.v ≠ nodata with
      | some y => (y.ce, y.v)
      | none => (intMin, nodata)
    if l.1 > 0 ∧ r.1 > 0 then
      (((l.2 : ℚ) * (r.1 - x.ce) + r.2 * (x.ce - l.1)) / (r.1 - l.1), true)
    else if l.1 > 0 then (l.2, true)
    else if r.1 > 0 then (r.2, true)
    else (nodata, false)
  else (x.v, true)

/-- Values of all steps. `polar-hl.c` 371-425: negative values become 0 (414). -/
def fillLoop (nodata : Int) (pre : List Step) : List Step → List ℚ × Bool
  | [] => ([], true)
  | x :: post =>
    let v := fillValue nodata pre x post
    let r := fillLoop nodata (x :: pre) post
    ((if v.1 < 0 then 0 else v.1) :: r.1, v.2 && r.2)

/-- `M_PI`: the double nearest to pi. `math.h`. -/
def mPi : ℚ := 884279719003555 / 281474976710656

/-- Conversion of a number to `int`. -/
def truncQ (x : ℚ) : Int := x.num.tdiv x.den

/-- Radians of a day: `r = ts->d_tsi[i].doy/365.0*2.0*M_PI`. `polar-hl.c` 413. `f` rounds to `float`, `d` to
`double`. -/
def dayToRad (f d : ℚ → ℚ) (doy : Int) : ℚ := f (d (d (d ((doy : ℚ) / 365) * 2) * mPi))

/-- Day of an angle: `doy = r*365.0/(2.0*M_PI)`, converted to `int`. `polar-hl.c` 71-76. -/
def radToDay (f d : ℚ → ℚ) (r : ℚ) : Int := truncQ (f (d (d (r * 365) / d (2 * mPi))))

/-- Day of the year of a step after the conversion to radians and back. `polar-hl.c` 413-416, 67-77. -/
def polarDay (f d : ℚ → ℚ) (doy : Int) : Int := radToDay f d (dayToRad f d doy)

/-- `polar_t` without the angle and the Cartesian coordinates. `cum` is `none` for NaN. `polar-hl.c` 32-42. -/
structure Pt where
  val : ℚ
  cum : Option ℚ
  ce : Int
  season : Int
deriving DecidableEq

/-- A zeroed `polar_t`. `polar-hl.c` 455. -/
def Pt.zero : Pt := ⟨0, some 0, 0, 0⟩

/-- `polar_coords`. `polar-hl.c` 67-82, 416. -/
def polarCoords (f d : ℚ → ℚ) (yearMin : Int) (x : Step) (v : ℚ) : Pt :=
  ⟨v, some 0, doy2ce (polarDay f d x.doy) (x.year - yearMin), 0⟩

/-- `identify_regular_seasons`: `s` and `y` are the current season and year. `polar-hl.c` 122-139. -/
def regular (thetaDoy istep : Int) (s y : Int) : List Pt → List Pt
  | [] => []
  | p :: l =>
    let ce := doy2ce thetaDoy y
    if p.ce ≥ ce ∧ p.ce - ce ≤ istep then
      { p with season := s + 1 } :: regular thetaDoy istep (s + 1) (y + 1) l
    else
      { p with season := s } :: regular thetaDoy istep s y l

/-- First loop of `accumulate_seasons` after the first element: `s` and `c` are season and `cum` of the element
before. `polar-hl.c` 262-271. -/
def cumsum (s : Int) (c : ℚ) : List Pt → List (Pt × ℚ)
  | [] => []
  | p :: l =>
    if p.season ≠ s then (p, p.val) :: cumsum p.season p.val l
    else (p, c + p.val) :: cumsum s (c + p.val) l

/-- Quotient of a cumulative sum and the sum of the season. `none` is NaN (0/0). `polar-hl.c` 284. -/
def share (a b : ℚ) : Option ℚ := if b = 0 then none else some (a / b)

/-- Second loop of `accumulate_seasons`, from the last element to the first. `polar-hl.c` 277-286. -/
def toShare (s : Int) (sum : ℚ) : List (Pt × ℚ) → List Pt
  | [] => []
  | (p, c) :: l =>
    if p.season ≠ s then { p with cum := share c c } :: toShare p.season c l
    else { p with cum := share c sum } :: toShare s sum l

/-- `accumulate_seasons`. `polar-hl.c` 254-289. -/
def accumulate : List Pt → List Pt
  | [] => []
  | p :: l =>
    let raw := ((p, p.val) :: cumsum p.season p.val l).reverse
    match raw with
    | [] => []
    | (q, c) :: _ => (toShare q.season c raw).reverse

/-- A step with the steps before and after it (`polar[i-1]`, `polar[i]`, `polar[i+1]`). `polar-hl.c` 466-538,
564-601. -/
structure Ctx where
  prev : Option Pt
  cur : Pt
  next : Option Pt
deriving DecidableEq

/-- All steps with their neighbours. -/
def ctxs (prev : Option Pt) : List Pt → List Ctx
  | [] => []
  | p :: l => ⟨prev, p, l.head?⟩ :: ctxs (some p) l

/-- Thresholds `pol->start`, `pol->mid`, `pol->end`. -/
structure Th where
  start : ℚ
  mid : ℚ
  stop : ℚ

/-- `cum >= t` (false for NaN). -/
def reaches (c : Option ℚ) (t : ℚ) : Bool := match c with
  | none => false
  | some c => t ≤ c

/-- `cum < t` (false for NaN). -/
def below (c : Option ℚ) (t : ℚ) : Bool := match c with
  | none => false
  | some c => c < t

/-- `timing` (`_LEFT_`, `_START_`, `_MID_`, `_PEAK_`, `_END_`, `_RIGHT_`). `polar-hl.c` 315-319. -/
structure Ev where
  left : Pt
  start : Pt
  mid : Pt
  peak : Pt
  stop : Pt
  right : Pt

/-- The events are zeroed for each season. `polar-hl.c` 455. -/
def Ev.init : Ev := ⟨.zero, .zero, .zero, .zero, .zero, .zero⟩

/-- `if (polar[i].cum >= t && timing[.].cum == 0) memcpy(..)`. `polar-hl.c` 485-494. -/
def firstAt (t : ℚ) (e p : Pt) : Pt := if reaches p.cum t ∧ e.cum = some 0 then p else e

/-- `cum > 0` (false for NaN). -/
def positive (c : Option ℚ) : Bool := match c with
  | none => false
  | some c => 0 < c

/-- `polar[i].cum > 0 && timing[_LEFT_].cum == 0`. `polar-hl.c` 472-473. -/
def firstPos (e p : Pt) : Pt :=
  if positive p.cum ∧ e.cum = some 0 then p else e

/-- End of the phenological year. `polar-hl.c` 476-482. -/
def lastFull (e : Pt) (c : Ctx) : Pt :=
  if c.cur.cum = some 1 then c.next.getD c.cur else e

/-- Maximum of the season. `polar-hl.c` 505-508. -/
def maxIn (th : Th) (e p : Pt) : Pt :=
  if reaches p.cum th.start ∧ below p.cum th.stop ∧ p.val > e.val then p else e

/-- Events of one step. `polar-hl.c` 471-508. -/
def evStep (th : Th) (e : Ev) (c : Ctx) : Ev :=
  ⟨firstPos e.left c.cur, firstAt th.start e.start c.cur, firstAt th.mid e.mid c.cur, maxIn th e.peak c.cur,
    firstAt th.stop e.stop c.cur, lastFull e.right c⟩

/-- Loop over the steps of season `s` from `i0`. `polar-hl.c` 466-538. -/
def scan {α : Type} (s : Int) (f : α → Ctx → α) (a : α) : List Ctx → α
  | [] => a
  | c :: l =>
    if c.cur.season < s then scan s f a l
    else if c.cur.season > s then a
    else scan s f (f a c) l

/-- `i0` after the second loop over the steps of season `s`. `polar-hl.c` 564-567. If no later season follows, `i0`
stays as it is. -/
def nextI0 (s : Int) (l0 : List Ctx) : List Ctx → List Ctx
  | [] => l0
  | c :: l => if c.cur.season > s then c :: l else nextI0 s l0 l

/-- `integral`. `polar-hl.c` 317, 327. -/
structure Integral where
  green : ℚ
  seasonal : ℚ
  latent : ℚ
  total : ℚ
  rising : ℚ
  falling : ℚ

/-- `integral` is zeroed. `polar-hl.c` 562. -/
def Integral.init : Integral := ⟨0, 0, 0, 0, 0, 0⟩

/-- Difference from the step before; 0 for the first step (`i > 0` fails). `polar-hl.c` 592, 597. -/
def Ctx.rise (c : Ctx) : ℚ := match c.prev with
  | none => 0
  | some q => c.cur.val - q.val

/-- Integrals of one step. `polar-hl.c` 569-599. -/
def intStep (th : Th) (istep : Int) (green base : ℚ) (a : Integral) (c : Ctx) : Integral :=
  let v := c.cur.val
  ⟨if reaches c.cur.cum th.start ∧ below c.cur.cum th.stop ∧ v > green then a.green + (v - green) * istep else a.green,
   if v > base then a.seasonal + (v - base) * istep else a.seasonal,
   if v > base then a.latent + base * istep else a.latent + v * istep,
   a.total + v * istep,
   if c.rise > 0 then a.rising + c.rise * istep else a.rising,
   if c.rise < 0 then a.falling + (-c.rise) * istep else a.falling⟩

/-- Numbers and rates of the early and late part of the growing season: `n_window`, `mean_rate` (sum), `max_rate`.
`polar-hl.c` 510-536. -/
structure Rate where
  nEarly : Nat
  sumEarly : ℚ
  maxEarly : ℚ
  nLate : Nat
  sumLate : ℚ
  maxLate : ℚ

/-- Zeroed for each season. `polar-hl.c` 457-459. -/
def Rate.init : Rate := ⟨0, 0, 0, 0, 0, 0⟩

/-- Rates of one step. `polar-hl.c` 510-536. -/
def rateStep (th : Th) (istep : Int) (a : Rate) (c : Ctx) : Rate :=
  let a :=
    if reaches c.cur.cum th.start ∧ below c.cur.cum th.mid then
      let a := if c.rise > 0 then
        let r := c.rise / istep
        { a with sumEarly := a.sumEarly + r, maxEarly := if r > a.maxEarly then r else a.maxEarly }
        else a
      { a with nEarly := a.nEarly + 1 }
    else a
  if reaches c.cur.cum th.mid ∧ below c.cur.cum th.stop then
    let a := if c.rise < 0 then
      let r := -c.rise / istep
      { a with sumLate := a.sumLate + r, maxLate := if r > a.maxLate then r else a.maxLate }
      else a
    { a with nLate := a.nLate + 1 }
  else a

/-- The metrics of a season before they are converted to `short`. `polar-hl.c` 604-653. `raf` and `rar` are `none` if
there is no step in the respective part (0/0). The averaged vectors (DEV, DAV, DLV, LGV, VEV, VAV, VLV) and the
statistics of the green values (VGM, VGV) are not modelled. -/
structure Metrics where
  dem : Int
  dss : Int
  dms : Int
  dps : Int
  des : Int
  dlm : Int
  dpy : Int
  dpv : Int
  lgs : Int
  lts : Int
  vem : ℚ
  vss : ℚ
  vms : ℚ
  vps : ℚ
  ves : ℚ
  vlm : ℚ
  vbl : ℚ
  vga : ℚ
  vpa : ℚ
  vsa : ℚ
  ist : ℚ
  ibl : ℚ
  ibt : ℚ
  igs : ℚ
  irr : ℚ
  ifr : ℚ
  rar : Option ℚ
  raf : Option ℚ
  rmr : ℚ
  rmf : ℚ
deriving DecidableEq

/-- Metrics of season `s`. `theta0` is the start of the adaptive year. `polar-hl.c` 453-653. -/
def seasonMetrics (th : Th) (istep thetaDoy theta0 s : Int) (l : List Ctx) : Metrics :=
  let e := scan s (evStep th) Ev.init l
  let rt := scan s (rateStep th istep) Rate.init l
  let green := (e.start.val + e.stop.val) / 2
  let base := (e.left.val + e.right.val) / 2
  let a := scan s (intStep th istep green base) Integral.init l
  let thetaCe := doy2ce thetaDoy s
  { dem := e.left.ce, dss := e.start.ce, dms := e.mid.ce, dps := e.peak.ce, des := e.stop.ce, dlm := e.right.ce,
    dpy := thetaCe, dpv := theta0 - thetaCe,
    lgs := e.stop.ce - e.start.ce, lts := e.right.ce - e.left.ce,
    vem := e.left.val, vss := e.start.val, vms := e.mid.val, vps := e.peak.val, ves := e.stop.val, vlm := e.right.val,
    vbl := base, vga := e.peak.val - green, vpa := e.peak.val - e.mid.val, vsa := e.peak.val - base,
    ist := a.seasonal / 365, ibl := a.latent / 365, ibt := a.total / 365, igs := a.green / 365,
    irr := a.rising / 30, ifr := a.falling / 30,
    rar := if rt.nEarly = 0 then none else some (rt.sumEarly / rt.nEarly * 30),
    raf := if rt.nLate = 0 then none else some (rt.sumLate / rt.nLate * 30),
    rmr := rt.maxEarly * 30, rmf := rt.maxLate * 30 }

/-- Conversion of a metric to `short`; `none` is undefined behaviour. `polar-hl.c` 605-653. -/
def shortOfQ (x : ℚ) : Option Int :=
  let i := truncQ x
  if -32768 ≤ i ∧ i ≤ 32767 then some i else none

/-- Output year of season `s`. `polar-hl.c` 462. -/
def outYear (thetaDoy : Int) (s : Nat) : Nat := if thetaDoy < 182 then s else s + 1

/-- Loop over `n` seasons from season `s`: output year and metrics. `polar-hl.c` 453-655. -/
def seasonLoop (th : Th) (istep thetaDoy : Int) (theta0 : Nat → Int) : Nat → Nat → List Ctx → List (Nat × Metrics)
  | 0, _, _ => []
  | n + 1, s, l =>
    (outYear thetaDoy s, seasonMetrics th istep thetaDoy (theta0 s) s l) ::
      seasonLoop th istep thetaDoy theta0 n (s + 1) (nextI0 s l l)

/-- Metrics of all seasons of a series whose seasons are known. `polar-hl.c` 450-655. -/
def seriesMetrics (th : Th) (istep thetaDoy : Int) (theta0 : Nat → Int) (ns : Nat) (l : List Pt) :
    List (Nat × Metrics) :=
  seasonLoop th istep thetaDoy theta0 ns 0 (ctxs none (accumulate l))

/-- The series of a pixel after the identification of the regular seasons; `none` if the pixel has no valid value.
`polar-hl.c` 365-446. -/
def polarSeries (f d : ℚ → ℚ) (nodata yearMin istep thetaDoy : Int) (l : List Step) : Option (List Pt) :=
  let r := fillLoop nodata [] l
  if r.2 then some (regular thetaDoy istep (-1) 0 (List.zipWith (polarCoords f d yearMin) l r.1)) else none

/-- Polarmetrics of a pixel inside the mask without the adaptive start of the year: `theta0` is all zero
(`polar-hl.c` 152-153). The result lists the years that are written and their metrics; all other years, and all years
if the result is `none`, keep nodata (355-359). `polar-hl.c` 353-660. -/
def polarPixel (f d : ℚ → ℚ) (nodata yearMin istep thetaDoy : Int) (th : Th) (ny : Nat) (l : List Step) :
    Option (List (Nat × Metrics)) :=
  (polarSeries f d nodata yearMin istep thetaDoy l).map
    (seriesMetrics th istep thetaDoy (fun _ => 0) (ny - 1))

end Verif.Polar
