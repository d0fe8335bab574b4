import Mathlib.Data.Rat.Floor
import Mathlib.Analysis.SpecialFunctions.Trigonometric.Inverse
import Mathlib.Analysis.SpecialFunctions.Trigonometric.Deriv

/-!
# Model of the position of the sun

`sun-cl.c`. The Julian centuries (`sunJC`) are modelled with the roundings of `float` and `double`, since they decide the result; the
trigonometric part (`sunpos`, `doy2dsun`, refraction) with real numbers. Declination and equation of time are parameters (series in
the Julian centuries, 104-287). The constants `_D2R_CONV_` and `_R2D_CONV_` are exactly `π / 180` and `180 / π`.
-/

namespace Verif.Sun

/-- sun-cl.c:73-75: the value that is stored in `JD` first, before the conversion to `float`. Sums of whole numbers and halves are exact
in `double`, and so is `365.25*(year + 4716)`; `rd` rounds `30.6001` and the product. -/
def midnight (rd : ℚ → ℚ) (year month day : ℤ) : ℚ :=
  let y := if month ≤ 2 then year - 1 else year
  let m := if month ≤ 2 then month + 12 else month
  let A := ⌊(y : ℚ) / 100⌋
  let B := 2 - A + ⌊(A : ℚ) / 4⌋
  ⌊(1461 / 4 : ℚ) * (y + 4716)⌋ + ⌊rd (rd (306001 / 10000) * (m + 1))⌋ + day + B - 3049 / 2

/-- sun-cl.c:77: `JD`. `flt` rounds to `float`, `dbl` to `double`. -/
def julianDay (flt dbl : ℚ → ℚ) (year month day : ℤ) (time : ℚ) : ℚ :=
  flt (dbl (flt (midnight dbl year month day) + dbl (time / 24)))

/-- sun-cl.c:66-78 `sunJC`. -/
def sunJC (flt dbl : ℚ → ℚ) (year month day : ℤ) (time : ℚ) : ℚ :=
  flt (dbl (dbl (julianDay flt dbl year month day time - 2451545) / 36525))

noncomputable section

open Real

/-- sun-cl.c:44-56 `doy2dsun`. -/
def dsun (doy : ℤ) : ℝ :=
  let doy := if doy > 365 then 365 else doy
  let a := 2 * π * (doy - 1) / 365
  1 / √(1.00011 + 0.034221 * cos a + 0.001280 * sin a + 0.000719 * cos (2 * a) + 0.000077 * sin (2 * a))

def rad (x : ℝ) : ℝ := x * (π / 180)
def deg (x : ℝ) : ℝ := x * (180 / π)

/-- sun-cl.c:333: the loop; the first argument bounds the number of iterations. -/
def wrap : ℕ → ℝ → ℝ
  | 0, x => x
  | n + 1, x => if x > 1440 then wrap n (x - 1440) else x

/-- sun-cl.c:331-335: `hourAngle`, in degrees; `minutes` is the time of the day in the timezone, `zone` its offset in minutes. -/
def hourAngle (minutes eqTime lon zone : ℝ) : ℝ :=
  let fix := eqTime + 4 * lon - zone
  let t := wrap ⌈(minutes + fix) / 1440⌉₊ (minutes + fix)
  let h := t / 4 - 180
  if h < -180 then h + 360 else h

/-- sun-cl.c:338-342: `zenith[0]`, in radians. -/
def zenith (lat dec h : ℝ) : ℝ :=
  let csz := sin (rad lat) * sin (rad dec) + cos (rad lat) * cos (rad dec) * cos (rad h)
  arccos (if csz > 1 then 1 else if csz < -1 then -1 else csz)

/-- sun-cl.c:344-359: `azimuth`, in degrees. -/
def azimuth (lat dec h : ℝ) : ℝ :=
  let z := zenith lat dec h
  let denom := cos (rad lat) * sin z
  let a :=
    if |denom| > 0.001 then
      let r := (sin (rad lat) * cos z - sin (rad dec)) / denom
      let r := if |r| > 1 then (if r < 0 then -1 else 1) else r
      let a := 180 - deg (arccos r)
      if h > 0 then -1 * a else a
    else if lat > 0 then 180
    else 0
  if a < 0 then a + 360 else a

/-- sun-cl.c:363-381: `refrac` for the elevation `e`, in degrees. -/
def refraction (e : ℝ) : ℝ :=
  if e > 85 then 0
  else
    let te := tan (rad e)
    (if e > 5 then 58.1 / te - 0.07 / (te * te * te) + 0.000086 / (te * te * te * te * te)
     else if e > -0.575 then 1735 + e * (-518.2 + e * (103.4 + e * (-12.79 + e * 0.711)))
     else -20.774 / te) / 3600

/-- sun-cl.c:310-392 `sunpos`, given declination and equation of time: zenith and azimuth in degrees. -/
def sunpos (lat lon dec eqTime minutes zone : ℝ) : ℝ × ℝ :=
  let h := hourAngle minutes eqTime lon zone
  let z := deg (zenith lat dec h)
  (z - refraction (90 - z), azimuth lat dec h)

/-- sunview-ll.c:90-107: the local time of the average of the two orbits, in hours; none: the argument of `asin` is out of range, and the result is
not a number, which is converted to `int` (undefined). -/
def localTime (lat : ℝ) : Option ℝ :=
  let l := tan (rad lat) / tan (rad 98.2)
  let s := tan (rad lat) / tan (rad 98.62)
  if (-1 ≤ l ∧ l ≤ 1) ∧ (-1 ≤ s ∧ s ≤ 1) then
    some (((10.18333333333 - deg (arcsin l) / 15) + (10.5 - deg (arcsin s) / 15)) / 2)
  else none

/-- Day of the year, hours, minutes, seconds. -/
structure Time where
  doy : ℤ
  hh : ℤ
  mm : ℤ
  ss : ℤ

/-- sunview-ll.c:41-75 `localtime2gmt`; times are not negative when they are converted to `int`. -/
def localtime2gmt (doy : ℤ) (time lon : ℝ) : Time :=
  let g := time - lon / 15
  let d := if g > 24 then (if doy + 1 > 365 then 365 else doy + 1) else doy
  let g := if g > 24 then g - 24 else g
  let d := if g < 0 then (if d - 1 < 1 then 1 else d - 1) else d
  let g := if g < 0 then g + 24 else g
  let hh := ⌊g⌋
  let lm := (g - hh) * 60
  let mm := ⌊lm⌋
  let ls := (lm - mm) * 60
  ⟨d, hh, mm, ⌊ls⌋⟩

end

end Verif.Sun
