import Verif.Str.Model
import Verif.Qai.Model
import Mathlib.Analysis.SpecialFunctions.Complex.Arg
import Mathlib.Analysis.SpecialFunctions.Trigonometric.Arctan
import Mathlib.Algebra.Order.Floor.Semiring

/-!
# Model of the topographic derivatives of Level 2 processing

`src/modules/lower-level/topo-ll.c` and the topographic factor of `atmo-ll.c`. Real numbers: the rounding of float and of the constants
`_R2D_CONV_`, `_D2R_CONV_`, `M_PI` is not modelled; the rounding to the stored integers is.
-/

namespace Verif.Topo

open Real Verif.Str

/-! ## Slope and aspect -/

/-- topo-ll.c:250 `dem[3][3]`: rows from north to south, columns from west to east. -/
abbrev Window := Fin 3 → Fin 3 → ℝ

/-- topo-ll.c:303-304. -/
noncomputable def devX (w : Window) (res : ℝ) : ℝ := ((w 0 2 + 2 * w 1 2 + w 2 2) - (w 0 0 + 2 * w 1 0 + w 2 0)) / (8 * res)

/-- topo-ll.c:305-306. -/
noncomputable def devY (w : Window) (res : ℝ) : ℝ := ((w 2 0 + 2 * w 2 1 + w 2 2) - (w 0 0 + 2 * w 0 1 + w 0 2)) / (8 * res)

/-- topo-ll.c:308: degrees. -/
noncomputable def slopeDeg (dx dy : ℝ) : ℝ := arctan (√(dx * dx + dy * dy)) * (180 / π)

/-- topo-ll.c:313-319: from counter-clockwise from east to clockwise from north. -/
noncomputable def compass (a : ℝ) : ℝ := if a < 0 then 90 - a else if a > 90 then 360 - a + 90 else 90 - a

/-- topo-ll.c:311-322: `atan2(y, x)` is the argument of the complex number `x + iy`. -/
noncomputable def aspectDeg (dx dy : ℝ) : ℝ := if slopeDeg dx dy > 0 then compass (Complex.arg ⟨-1 * dx, dy⟩ * (180 / π)) else 0

/-- C11 6.3.1.4: conversion of a real number to `ushort`: towards zero, undefined if the result does not fit. -/
noncomputable def toUshort (x : ℝ) : Out Nat := if -1 < x ∧ x < 65536 then .ok ⌊x⌋₊ else .ub

/-- topo-ll.c:303-325: stored slope, stored aspect, and the flag for slope. -/
noncomputable def exposition (w : Window) (res : ℝ) : Out (Nat × Nat × Bool) :=
  let dx := devX w res
  let dy := devY w res
  (toUshort (slopeDeg dx dy * (π / 180) * 10000)).bind fun s =>
    (toUshort (aspectDeg dx dy * (π / 180) * 10000)).bind fun a => .ok (s, a, decide (slopeDeg dx dy > 2))

/-! ## Illumination -/

/-- radtran-ll.c:383-389 `illumin`. -/
noncomputable def illumin (csz ssz ctz stz sa ta : ℝ) : ℝ := csz * ctz + ssz * stz * cos (sa - ta)

/-- C11 6.3.1.4: conversion to `short`. -/
noncomputable def toShort (x : ℝ) : Out Int := if -32769 < x ∧ x < 32768 then .ok (if 0 ≤ x then ⌊x⌋ else ⌈x⌉) else .ub

/-- topo-ll.c:548-557: from the stored slope and aspect; `sz`, `sa` are zenith and azimuth of the sun. -/
noncomputable def illumination (sz sa : ℝ) (slp asp : Nat) : Out Int :=
  if (slp : ℝ) / 10000 = 0 then toShort (cos sz * 10000)
  else toShort (illumin (cos sz) (sin sz) (cos ((slp : ℝ) / 10000)) (sin ((slp : ℝ) / 10000)) sa ((asp : ℝ) / 10000) * 10000)

/-- topo-ll.c:560-566: the illumination flag; 0 is the value before. -/
def illuminationFlag (ill : Int) : Nat :=
  if ill < 0 then 3 else if (ill : ℚ) < 1736482 / 1000 then 2 else if (ill : ℚ) < 5735764 / 1000 then 1 else 0

/-- topo-ll.c:569. -/
noncomputable def skyView (slp : Nat) : Out Nat := toUshort (10000 - (slp : ℝ) / 10000 / π * 10000)

/-! ## Elevation classes -/

/-- topo-ll.c:464-470: minimum, maximum and step of the elevations of the usable pixels, in km. -/
structure Levels where
  min : ℝ
  max : ℝ
  step : ℝ

/-- topo-ll.c:433-470; `d` the elevations in km; `SHRT_MAX`, `SHRT_MIN` are the start values. -/
noncomputable def levels (d : List ℝ) : Levels :=
  let mn := d.foldl (fun m x => if x < m then x else m) 32767
  let mx := d.foldl (fun m x => if x > m then x else m) (-32768)
  let mx := mx + 1 / 1000
  ⟨mn, mx, (mx - mn) / 255⟩

/-- topo-ll.c:480. -/
noncomputable def elevationClass (l : Levels) (x : ℝ) : Int := ⌊(x - l.min) / l.step⌋

/-- atmo-ll.c:821, 845: the elevation for which the atmosphere of a class is computed. -/
noncomputable def classElevation (l : Levels) (z : Nat) : ℝ := l.min + l.step / 2 + z * l.step

/-- topo-ll.c:486-489: are the elevations accepted? -/
noncomputable def accepted (l : Levels) : Prop := ¬ (l.min < -1 / 2 ∨ l.max > 9)

/-! ## Topographic correction -/

/-- atmo-ll.c:315. -/
noncomputable def flatSky (szen : ℝ) : ℝ := (π + 2 * szen) / (2 * π)

/-- Diffuse and direct transmittance of a band. -/
structure Light where
  diffuse : ℝ
  direct : ℝ

/-- atmo-ll.c:289-320: the topographic factor of a band; `tss_sw2` and `tsd_sw2` are read from the arrays of the band (lines 289-290), `sw2` is what the arrays
of SWIR2 hold. `E` is the irradiance of the band, which cancels. -/
noncomputable def factor (band sw2 : Light) (E szen ill sky cf : ℝ) : ℝ :=
  let _ := sw2
  if 0 < ill then
    let ms := cos szen
    let tss_sw2 := band.diffuse
    let tsd_sw2 := band.direct
    let f := E * band.diffuse / (E * band.direct)
    let f0 := E * tss_sw2 / (E * tsd_sw2)
    let h0 := flatSky szen
    let A := (ms + cf / f0 * f / h0) / (ill + sky * cf / f0 * f / h0)
    if A < 0 then -10000 else A
  else 1

/-- radtran-ll.c:400-410 `c_factor_emp`. -/
noncomputable def cEmpirical (b m : ℝ) : ℝ := if b < 0 ∨ m ≤ 0 then 0 else b / m

/-- topo-ll.c:870-935: the C-factor of a pixel: `fit` is the regression of the neighbourhood (intercept, slope, means of illumination and reflectance) if the
pixel is sloped and there are more than two samples; `cTheory` is the theoretical C-factor. -/
noncomputable def cFactor (cTheory rhoP : ℝ) (fit : Option (ℝ × ℝ × ℝ × ℝ)) : ℝ :=
  let cor := match fit with
    | none => 0
    | some (offset, gain, mx, my) =>
      let (offset, gain) := if offset < rhoP then (rhoP, (my - rhoP) / mx) else (offset, gain)
      if offset < 10 * gain then cEmpirical offset gain else 10
  let cor := if cor < 0 ∨ cor < cTheory then cTheory else cor
  if cor > 65535 / 10000 then 65535 / 10000 else cor

/-- topo-ll.c:955-977: the mean of the C-factors `l` of the illuminated pixels of the neighbourhood, in 1/10000. -/
noncomputable def cStored (l : List ℝ) : Out Nat :=
  let cf := l.sum / l.length * 10000
  toUshort (if cf > 65535 then 65535 else cf)

end Verif.Topo
