import Mathlib.Analysis.SpecialFunctions.Pow.Real
import Verif.Ccl.Model
import Verif.Libc.Model
import Verif.Radtran.Model
import Verif.Str.Model

/-!
# Model of the estimation of the aerosol optical depth

`src/modules/lower-level/aod-ll.c`. Floating-point numbers are real or rational numbers, `float` and `double`
are not distinguished. Sums in loops are sums of lists. The minimisers of the GSL and the inverse distance
weighting of GDAL are parameters. The distance transform is in `Verif.Dist`, its result is a parameter. Shadow
targets are disabled in the code and left out. The log file of the debug mode is left out.
-/

namespace Verif.Aod

open Verif.Str (Out)
open Verif.Ccl (Px)
open Classical

/-! ## Dark targets -/

/-- `_AOD_WAT_`, `_AOD_VEG_`. -/
inductive Kind where
  | water | vegetation
deriving DecidableEq

/-- What is known about a pixel: quality flags, TOA reflectance (10000 is 1), slope (10000 is 1 rad),
elevation (km). -/
structure Pixel where
  off : Bool
  shadow : Bool
  cloud : Nat
  toa : Nat → Int
  slp : Nat
  z : ℚ

/-- Bands: number, domains, and those that are used for AOD (`aod_bands`). -/
structure Conf where
  nb : Nat
  ultrablue : Option Nat
  blue : Nat
  green : Nat
  red : Nat
  nir : Nat
  sw2 : Nat
  use : Nat → Bool

/-- The scene. `dist`: distance to the shore of the targets, aod-ll.c:324. -/
structure Scene where
  ny : Nat
  nx : Nat
  px : Px → Pixel
  dist : Px → Nat

/-- aod-ll.c:267-268: `(nir-red)/(float)(nir+red) > 0.4`; infinite for a sum of 0. -/
def ndviAbove (nir red : Int) : Bool :=
  if nir + red = 0 then decide (nir > red) else decide (((nir - red : Int) : ℚ) / ((nir + red : Int) : ℚ) > 4 / 10)

/-- aod-ll.c:233-279: is the pixel a candidate? -/
def candidate (kind : Kind) (c : Conf) (x : Pixel) : Bool :=
  !x.off && match kind with
    | .water => decide (x.toa c.sw2 < 250) && decide (x.toa c.red < 2000) && decide (x.toa c.blue > x.toa c.nir) &&
        ((decide (x.z < 1) && decide (x.slp < 870)) || (decide (x.z > 1) && decide (x.slp < 175)))
    | .vegetation => decide (x.toa c.sw2 < 500) && decide (x.toa c.red < 2000) && decide (x.toa c.blue < x.toa c.nir) &&
        ndviAbove (x.toa c.nir) (x.toa c.red) && decide (x.slp < 2620)

/-- aod-ll.c:197: pixels per cell. -/
def cellSize (cellRes res : ℚ) : Int := ⌊cellRes / res⌋

/-- aod-ll.c:233-314: the candidates, without the rows and columns that separate the cells. -/
def targets (kind : Kind) (c : Conf) (cs : Int) (s : Scene) : Ccl.Image where
  ny := s.ny
  nx := s.nx
  px p := candidate kind c (s.px p) && decide (p.1 % cs ≠ 0) && decide (p.2 % cs ≠ 0)

/-- brick_base-cl.c:790-797 `convert_brick_ji2jip`: row and column of the cell. -/
def cell (cellRes res : ℚ) (p : Px) : Int × Int := (⌊p.1 * res / cellRes⌋, ⌊p.2 * res / cellRes⌋)

/-- aod-ll.c:343-356: does the spectrum not increase? Each band is compared to all before. -/
def lapse (kind : Kind) (c : Conf) (toa : Nat → Int) : Bool :=
  (List.range c.nb).all fun b => b == 0 || !c.use b || (kind == .vegetation && b == c.sw2) ||
    (List.range b).all fun bb => !c.use bb || !decide (toa b > toa bb)

/-- aod-ll.c:336-360: LAPSE. `lab` are the labels of the segments. -/
def lapsing (kind : Kind) (c : Conf) (s : Scene) (lab : Px → Int) (p : Px) : Bool :=
  !(s.px p).off && !decide (lab p < 1) && !((s.px p).shadow || decide ((s.px p).cloud > 0)) &&
    !(kind == .vegetation && decide (s.dist p < 2)) && lapse kind c (s.px p).toa

/-- aod-ll.c:437-440: does the pixel count for the object with label `l`? -/
def counts (kind : Kind) (c : Conf) (s : Scene) (lab : Px → Int) (l : Int) (p : Px) : Bool :=
  !(s.px p).off && decide (lab p = l) && !((s.px p).shadow || decide ((s.px p).cloud > 0)) && lapsing kind c s lab p

/-- The pixels of the image, row by row. -/
def pixels (s : Scene) : List Px :=
  (List.range s.ny).flatMap fun (i : Nat) => (List.range s.nx).map fun (j : Nat) => ((i : Int), (j : Int))

/-- `darkobj_t`: number of pixels, radius, bounding box. -/
structure Box where
  k : Nat
  r : Nat
  imin : Int
  imax : Int
  jmin : Int
  jmax : Int
  zsum : ℚ

/-- aod-ll.c:442-456: one pixel. -/
def grow (s : Scene) (o : Box) (p : Px) : Box where
  k := o.k + 1
  r := if s.dist p > o.r then s.dist p else o.r
  imin := if p.1 < o.imin then p.1 else o.imin
  imax := if p.1 > o.imax then p.1 else o.imax
  jmin := if p.2 < o.jmin then p.2 else o.jmin
  jmax := if p.2 > o.jmax then p.2 else o.jmax
  zsum := o.zsum + (s.px p).z

/-- aod-ll.c:413-459: first pass for the object with label `l`. -/
def box (kind : Kind) (c : Conf) (s : Scene) (lab : Px → Int) (l : Int) : Box :=
  (pixels s).foldl (fun o p => if counts kind c s lab l p then grow s o p else o) ⟨0, 0, s.ny, 0, s.nx, 0, 0⟩

/-- The integers from `a` to `b`. -/
def intRange (a b : Int) : List Int := (List.range (b - a + 1).toNat).map fun (n : Nat) => a + (n : Int)

/-- aod-ll.c:492-496: the pixels in the surroundings of an object. -/
def window (s : Scene) (o : Box) : List Px :=
  ((intRange (o.imin - 3 * o.r) (o.imax + 3 * o.r)).flatMap fun i =>
    (intRange (o.jmin - 3 * o.r) (o.jmax + 3 * o.r)).map fun j => (i, j)).filter fun p =>
      !(decide (p.1 < 0) || decide (p.2 < 0) || decide (p.1 ≥ s.ny) || decide (p.2 ≥ s.nx))

/-- aod-ll.c:498-499: neither off, shadow nor cloud. -/
def clear (x : Pixel) : Bool := !x.off && !(x.shadow || decide (x.cloud > 0))

/-- aod-ll.c:501-509: pixels of the environment in the surroundings. -/
def environ (s : Scene) (lab : Px → Int) (o : Box) : List Px :=
  (window s o).filter fun p => clear (s.px p) && decide (lab p = 0)

/-- aod-ll.c:511-519: pixels of the target in the surroundings. -/
def inner (kind : Kind) (c : Conf) (s : Scene) (lab : Px → Int) (l : Int) (o : Box) : List Px :=
  (window s o).filter fun p => clear (s.px p) && !decide (lab p = 0) && decide (lab p = l) && lapsing kind c s lab p

/-- Sum of the reflectance of one band. -/
def total (s : Scene) (b : Nat) (l : List Px) : ℚ := (l.map fun p => (((s.px p).toa b : Int) : ℚ) / 10000).sum

/-- aod-ll.c:368-402: scene average. -/
def sceneMean (s : Scene) (b : Nat) : ℚ :=
  let l := (pixels s).filter fun p => clear (s.px p)
  if l.length > 0 then total s b l / l.length else 0

/-- Second pass: reflectance of target and environment, elevation, position. -/
structure Object where
  target : Nat → ℚ
  environment : Nat → ℚ
  z : ℚ
  center : Px

/-- aod-ll.c:465-574: second pass for the object with label `l`; `none`: not valid. Bands that are not used are
left out of the reflectances in the code. -/
def object (kind : Kind) (c : Conf) (s : Scene) (lab : Px → Int) (l : Int) : Option Object :=
  let o := box kind c s lab l
  if o.k < 10 then none
  else if o.r < 3 then none
  else if (inner kind c s lab l o).length < 10 then none
  else some
    { target := fun b => total s b (inner kind c s lab l o) / (inner kind c s lab l o).length
      environment := fun b => if (environ s lab o).length < 10 then sceneMean s b
        else total s b (environ s lab o) / (environ s lab o).length
      z := o.zsum / o.k
      center := ((o.imax + o.imin).tdiv 2, (o.jmax + o.jmin).tdiv 2) }

/-! ## AOD of a target -/

/-- aod-ll.c:1274-1341: one band of one target: is an AOD of the grid reasonable, and by how much does the
reflectance differ for one spectrum of the library? Both are results of the radiative transfer. -/
structure Curve where
  implausible : ℝ → Bool
  mismatch : Nat → ℝ → ℝ

/-- aod-ll.c:1341-1345: one step for one spectrum: best match and its AOD. -/
noncomputable def better (m : ℝ → ℝ) (st : ℝ × ℝ) (aod : ℝ) : ℝ × ℝ :=
  if m aod < st.1 then (m aod, aod) else st

/-- aod-ll.c:1248-1350: one band; `old` is what the array holds before. `steps` are the values of AOD. -/
noncomputable def scan (cv : Curve) (steps : List ℝ) (w : Nat) (old : ℝ) : ℝ :=
  ((steps.takeWhile fun a => !cv.implausible a).foldl (better (cv.mismatch w)) (2147483647, old)).2

/-- aod-ll.c:1215-1357 `aod_lib_to_target`: the array with estimates, by spectrum and band. -/
noncomputable def libToTarget (c : Conf) (steps : List ℝ) (cv : Nat → Curve) (old : Nat → Nat → ℝ) (w b : Nat) : ℝ :=
  if decide (b < c.nb) && c.use b && decide (b ≠ c.sw2) then scan (cv b) steps w (old w b) else old w b

/-- aod-ll.c:768. -/
noncomputable def swirAod : ℝ := 0.0172

/-- aod-ll.c:783-788: one band. -/
noncomputable def clampStep (c : Conf) (e : Nat → ℝ) (b : Nat) : Nat → ℝ :=
  if c.use b = true ∧ e b ≤ e c.sw2 then fun x => if b ≤ x ∧ x < c.nb ∧ c.use x = true then e c.sw2 else e x else e

/-- aod-ll.c:768: SWIR2 is set. -/
noncomputable def fixSwir (c : Conf) (e : Nat → ℝ) : Nat → ℝ := fun x => if x = c.sw2 then swirAod else e x

/-- aod-ll.c:757-792: estimates that are used for the fit; `none`: the spectrum is skipped. -/
noncomputable def prepare (kind : Kind) (c : Conf) (e : Nat → ℝ) : Option (Nat → ℝ) :=
  if ∃ b, b < c.nb ∧ c.use b = true ∧ e b < 0 then none
  else if kind = .vegetation ∧ e c.red > e c.blue then none
  else if fixSwir c e c.blue ≤ fixSwir c e c.sw2 then none
  else if ∃ u, c.ultrablue = some u ∧ c.use u = true ∧ fixSwir c e u < fixSwir c e c.blue then none
  else some ((List.range c.nb).foldl (clampStep c) (fixSwir c e))

/-- The bands that are used, aod-ll.c:1378-1383, 1388-1392, 1757-1760. -/
def usedBands (c : Conf) : List Nat := (List.range c.nb).filter c.use

/-- Mean of a list. -/
noncomputable def avg (l : List ℝ) : ℝ := l.sum / l.length

/-- aod-ll.c:1368-1403 `aod_linear_fit` on logarithms of wavelength and AOD. -/
noncomputable def linearFit (pts : List (ℝ × ℝ)) : ℝ × ℝ :=
  let xm := avg (pts.map (·.1))
  let ym := avg (pts.map (·.2))
  let cv := (pts.map fun p => (p.1 - xm) * (p.2 - ym)).sum / pts.length
  let vr := (pts.map fun p => (p.1 - xm) * (p.1 - xm)).sum / pts.length
  (Real.exp (ym - cv / vr * xm), cv / vr)

/-- Coefficients of the fitted curve. -/
structure Coef where
  a0 : ℝ
  a1 : ℝ
  a2 : ℝ

/-- aod-ll.c:802, 828: the fitted curve; `lwvl` is the logarithm of the wavelength (um). -/
noncomputable def curve (wvl : Nat → ℝ) (k : Coef) (b : Nat) : ℝ :=
  k.a0 * wvl b ^ (k.a1 + k.a2 * Real.log (wvl b))

/-- aod-ll.c:805-812, 831-838: the curve must not increase. -/
def shapeOk (nb : Nat) (f : Nat → ℝ) : Prop :=
  ∀ b, 1 ≤ b → b < nb → ¬ (f b > f (b - 1) ∧ f b > 0.01 ∧ f (b - 1) > 0.01) ∧ ¬ (f b < -0.01 ∧ f (b - 1) < -0.01)

/-- aod-ll.c:814-816, 840-841: limits of the coefficients. -/
def limitsOk (k : Coef) : Prop := ¬ (k.a0 < 0 ∨ k.a0 > 0.3) ∧ ¬ (k.a1 > 0 ∨ k.a1 < -3)

/-- Points of the fit. -/
noncomputable def logPoints (c : Conf) (wvl : Nat → ℝ) (e : Nat → ℝ) : List (ℝ × ℝ) :=
  (usedBands c).map fun b => (Real.log (wvl b), Real.log (e b))

/-- aod-ll.c:798-846: polynomial or linear fit; `poly` gives the coefficients found by the simplex search.
`none`: neither was successful. The flag tells that it is the linear fit. -/
noncomputable def fitCurve (kind : Kind) (c : Conf) (wvl : Nat → ℝ) (poly : List (ℝ × ℝ) → Coef) (e : Nat → ℝ) :
    Option (Coef × Bool) :=
  let p := poly (logPoints c wvl e)
  let p : Coef := { p with a0 := Real.exp p.a0 }
  let q := linearFit (logPoints c wvl e)
  let q : Coef := ⟨q.1, q.2, 0⟩
  if kind ≠ .vegetation ∧ shapeOk c.nb (curve wvl p) ∧ limitsOk p ∧ ¬ p.a2 > 0 then some (p, false)
  else if shapeOk c.nb (curve wvl q) ∧ limitsOk q then some (q, true)
  else none

/-- aod-ll.c:849-853: coefficient of determination. -/
noncomputable def rsquare (c : Conf) (e f : Nat → ℝ) : ℝ :=
  1 - ((usedBands c).map fun b => (e b - f b) * (e b - f b)).sum /
    ((usedBands c).map fun b => (e b - avg ((usedBands c).map e)) * (e b - avg ((usedBands c).map e))).sum

/-- The best fit so far. -/
structure Best where
  rsq : ℝ
  w : Nat
  coef : Coef
  linear : Bool

/-- aod-ll.c:757-858: one spectrum of the library. -/
noncomputable def tryFit (kind : Kind) (c : Conf) (wvl : Nat → ℝ) (poly : List (ℝ × ℝ) → Coef) (e : Nat → ℝ) :
    Option (Coef × Bool × ℝ) :=
  match prepare kind c e with
  | none => none
  | some e' => match fitCurve kind c wvl poly e' with
    | none => none
    | some (k, lin) => some (k, lin, rsquare c e' (curve wvl k))

/-- aod-ll.c:853-858. -/
noncomputable def bestStep (fits : Nat → Option (Coef × Bool × ℝ)) (st : Option Best) (w : Nat) : Option Best :=
  match fits w with
  | none => st
  | some (k, lin, r) => if r > (match st with | none => 0 | some b => b.rsq) then some ⟨r, w, k, lin⟩ else st

/-- aod-ll.c:755-878: the AOD of a target; `none`: not valid. `n` is the number of spectra in the library. -/
noncomputable def fromTarget (kind : Kind) (c : Conf) (wvl : Nat → ℝ) (poly : List (ℝ × ℝ) → Coef) (n : Nat)
    (est : Nat → Nat → ℝ) : Option Best :=
  match (List.range n).foldl (bestStep fun w => tryFit kind c wvl poly (est w)) none with
  | none => none
  | some b => if b.rsq < 0.1 then none else some b

/-- aod-ll.c:757-792: what the array holds after a target: spectra that were not skipped were changed. -/
noncomputable def leave (kind : Kind) (c : Conf) (est : Nat → Nat → ℝ) (w : Nat) : Nat → ℝ :=
  match prepare kind c (est w) with
  | none => est w
  | some e => e

/-- aod-ll.c:735-887: the targets that one thread works on, in order; the array is that of the thread. Spectra
that are skipped after SWIR2 was set keep the former value here: it is set again before it is used. -/
noncomputable def thread (kind : Kind) (c : Conf) (wvl : Nat → ℝ) (poly : List (ℝ × ℝ) → Coef) (n : Nat) (steps : List ℝ) :
    (Nat → Nat → ℝ) → List (Nat → Curve) → List (Option Best)
  | _, [] => []
  | old, cv :: rest =>
    let est := libToTarget c steps cv old
    fromTarget kind c wvl poly n est :: thread kind c wvl poly n steps (leave kind c est) rest

/-! ## AOD map -/

/-- A valid target: cell, elevation, squared R2 is the weight, AOD per band. -/
structure Target where
  g : Nat
  z : ℝ
  rsq : ℝ
  aod : Nat → ℝ

/-- aod-ll.c:984-1012: the values for the elevation dependency, written to arrays with `n` elements. -/
def fill (n : Nat) : Nat → List Target → Out Nat
  | k, [] => .ok k
  | k, _ :: ts => if k < n then fill n (k + 1) ts else .ub

/-- aod-ll.c:977-1080: the scaling height. `brent` is the minimum found by the GSL between 0.1 and 1000, `none`
if there is none. `nwat` and `nveg` are the numbers that were counted, the lists are the valid targets. -/
noncomputable def height (brent : Option ℝ) (demRange : ℝ) (nwat nveg : Nat) (wat veg : List Target) : Out ℝ :=
  let n := nwat + 0 + nveg
  if n > 3 ∧ demRange > 0.1 then
    (fill n 0 (wat ++ veg)).bind fun _ =>
      let zs := (wat ++ veg).map (·.z)
      let zmin := zs.foldl (fun m z => if z < m then z else m) 2147483647
      let zmax := zs.foldl (fun m z => if z > m then z else m) (-2147483648)
      if zmax - zmin > 0.1 then
        match brent with
        | some x => .ok (if x < 1.2 then 1.2 else x)
        | none => .ok 1000
      else .ok 1000
  else .ok 1000

/-- aod-ll.c:1540, 1552, 1564: the AOD of a target at the mean elevation of the scene. -/
noncomputable def scaled (hp za : ℝ) (b : Nat) (t : Target) : ℝ :=
  Radtran.elevScale (t.aod b) (Radtran.aodFactor t.z hp) (Radtran.aodFactor za hp)

/-- aod-ll.c:1535-1568: weighted sum of a cell. -/
noncomputable def cellSum (hp za : ℝ) (b g : Nat) (ts : List Target) : ℝ :=
  ((ts.filter fun t => decide (t.g = g)).map fun t => scaled hp za b t * (t.rsq * t.rsq)).sum

/-- aod-ll.c:1535-1568: sum of the weights of a cell. -/
noncomputable def cellWeight (g : Nat) (ts : List Target) : ℝ :=
  ((ts.filter fun t => decide (t.g = g)).map fun t => t.rsq * t.rsq).sum

/-- aod-ll.c:1572-1580: the map, 0 without targets. -/
noncomputable def mapCell (hp za : ℝ) (ts : List Target) (b g : Nat) : ℝ :=
  if cellWeight g ts > 0 then cellSum hp za b g ts / cellWeight g ts else cellSum hp za b g ts

/-- aod-ll.c:1576-1577: is the cell flagged as interpolated? -/
noncomputable def interpolated (ts : List Target) (g : Nat) : Bool := decide (¬ cellWeight g ts > 0)

/-- aod-ll.c:1642-1654: the cells with an estimate: column, row and value. -/
noncomputable def samples (map : Nat → Nat → ℝ) (green nf ng b : Nat) : List (Nat × Nat × ℝ) :=
  ((List.range ng).filter fun g => decide (map green g > 0)).map fun g => (g % nf, g / nf, map b g)

/-- aod-ll.c:1673-1679: the cells around a cell. -/
def around (ne nf e f : Nat) : List Nat :=
  ((intRange (-1) 1).flatMap fun ee => (intRange (-1) 1).map fun ff => ((e : Int) + ee, (f : Int) + ff)).filterMap fun p : Int × Int =>
    if p.1 < 0 ∨ p.2 < 0 ∨ p.1 ≥ ne ∨ p.2 ≥ nf then none else some (p.1 * (nf : Int) + p.2).toNat

/-- aod-ll.c:1681: the smoothed value. -/
noncomputable def smooth (ip : Nat → ℝ) (ne nf e f : Nat) : ℝ :=
  if (around ne nf e f).length > 0 then avg ((around ne nf e f).map ip) else 0

/-- aod-ll.c:1666-1692: map and scene average of one band. `view`: cells with a view angle. `none`: the cell
keeps its value. -/
noncomputable def smoothMap (ip : Nat → ℝ) (view : Nat → Bool) (ne nf : Nat) : (Nat → Option ℝ) × ℝ :=
  let v := fun g => if view g then some (smooth ip ne nf (g / nf) (g % nf)) else none
  let pos := ((List.range (ne * nf)).filterMap v).filter fun a => decide (a > 0)
  (v, if pos.length > 0 then avg pos else 0)

/-- aod-ll.c:1606-1704 `interpolate_aod_map`; `idw` is the interpolation of GDAL. -/
noncomputable def interpolate (idw : List (Nat × Nat × ℝ) → Nat → ℝ) (map : Nat → Nat → ℝ) (view : Nat → Bool)
    (green ne nf b : Nat) : (Nat → Option ℝ) × ℝ :=
  smoothMap (idw (samples map green nf (ne * nf) b)) view ne nf

/-- aod-ll.c:1745-1749, 1785-1793: the result; the second number is that of the scene. -/
noncomputable def compile (doaod : Bool) (lut : Nat → ℝ) (map : Nat → (Nat → Option ℝ) × ℝ) (nwat nveg : Nat) (b : Nat) :
    Option (Nat → Option ℝ) × ℝ :=
  if !doaod then (none, lut b)
  else if nwat + 0 + nveg > 0 then (some (map b).1, (map b).2)
  else (none, lut b)

/-! ## External AOD -/

/-- One line of the file: coordinates and the rest of the line. -/
def site (rd : ℚ → ℚ) (line : List Char) : Option (ℚ × ℚ × List (List Char)) :=
  match Libc.strtok (· = ' ') line with
  | none => none
  | some (x, r1) => match Libc.strtok (· = ' ') r1 with
    | none => none
    | some (y, r2) => match Libc.strtok (· = ' ') r2 with
      | none => some (Libc.atof rd x, Libc.atof rd y, [])
      | some (c0, r3) => match Libc.strtok (· = ' ') r3 with
        | none => some (Libc.atof rd x, Libc.atof rd y, [c0])
        | some (c1, r4) => match Libc.strtok (· = ' ') r4 with
          | none => some (Libc.atof rd x, Libc.atof rd y, [c0, c1])
          | some (c2, _) => some (Libc.atof rd x, Libc.atof rd y, [c0, c1, c2])

/-- The nearest site so far: squared distance and coefficients. The first distance is `LONG_MAX`. -/
structure Near where
  d2 : ℚ
  co : ℚ × ℚ × ℚ

/-- aod-ll.c:105-122: one line. `atof(NULL)` is undefined. -/
def nearStep (rd : ℚ → ℚ) (cx cy : ℚ) (st : Near) (line : List Char) : Out Near :=
  match site rd line with
  | none => .ub
  | some (x, y, cs) =>
    if (cx - x) * (cx - x) + (cy - y) * (cy - y) < st.d2 then
      match cs with
      | [c0, c1, c2] => .ok ⟨(cx - x) * (cx - x) + (cy - y) * (cy - y),
          (Libc.atof rd c0, Libc.atof rd c1, Libc.atof rd c2)⟩
      | _ => .ub
    else .ok st

/-- aod-ll.c:105-122: all lines. -/
def nearLoop (rd : ℚ → ℚ) (cx cy : ℚ) : List (List Char) → Near → Out Near
  | [], st => .ok st
  | l :: ls, st => (nearStep rd cx cy st l).bind (nearLoop rd cx cy ls)

/-- aod-ll.c:53, 57: global coefficients and first distance (squared). -/
def start : Near := ⟨9223372036854775808 ^ 2, (-2.8665, -1.4787, -0.0486)⟩

/-- aod-ll.c:45-135 `aodfileread`: the coefficients. `file`: `none` if no directory is given. -/
def aodFile (rd : ℚ → ℚ) (cx cy : ℚ) (file : Option (List Char)) : Out (ℚ × ℚ × ℚ) :=
  match file with
  | none => .ok start.co
  | some text => (nearLoop rd cx cy (Libc.fgetsAll 1024 text) start).bind fun n => .ok n.co

/-- aod-ll.c:72-73, 127-128. -/
noncomputable def aodLut (wvl : Nat → ℝ) (co : ℝ × ℝ × ℝ) (b : Nat) : ℝ :=
  Real.exp co.1 * wvl b ^ (co.2.1 + co.2.2 * Real.log (wvl b))

end Verif.Aod
