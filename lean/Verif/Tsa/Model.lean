import Mathlib.Analysis.SpecialFunctions.Trigonometric.Basic
import Verif.Date.Model
import Verif.Fold.Model
import Verif.Libc.Model
import Verif.Season.Model

/-!
# Products of the time series submodule

Model of tsa-hl.c (dates, names, labels and selection of the products), of the consistency rules of
param-hl.c for this submodule, and of the harmonic interpolation in interpolate-hl.c. Names are lists
of characters where they are composed. The robust regression of the GSL is a parameter. Buffers of
1024 characters are not modelled: names are assumed to fit (a longer one ends the program, C29).
-/

namespace Verif.Tsa

open Verif.Str (Out)

/-! ## Parameters -/

/-- enum-cl.h:153: interpolation methods. -/
inductive Method where
  | none | linear | moving | rbf | harmonic
deriving DecidableEq

/-- Requested output of one kind of fold: folded series, trend, change. -/
structure Fold3 where
  fb : Bool
  tr : Bool
  ca : Bool
deriving DecidableEq

/-- param-hl.c:190-270 `register_tsa`: the parameters that select products. `pypCode`, `rspCode`, `emb`:
a file is given (not `NULL`). `ns`: number of seasons, param-hl.c:1081. -/
structure Par where
  indices : List String
  otss : Bool
  orms : Bool
  onrt : Bool
  otsi : Bool
  ostm : Bool
  fby : Fold3
  fbq : Fold3
  fbm : Fold3
  fbw : Fold3
  fbd : Fold3
  opct : Bool
  opol : Bool
  otro : Bool
  ocao : Bool
  pol : List String
  pypOut : Bool
  pypCode : Bool
  rspOut : Bool
  rspCode : Bool
  stream : Bool
  method : Method
  fitMin : Int
  fitMax : Int
  sto : Bool
  pos : Bool
  emb : Bool
  ns : Int

/-- param-hl.c:1233-1235. -/
def fixRms (p : Par) : Par :=
  if p.orms && !p.indices.contains "SMA" then { p with orms := false } else p

/-- param-hl.c:1243-1246. -/
def fixNrt (p : Par) : Par :=
  if p.onrt && decide (p.method ≠ .harmonic) then { p with onrt := false } else p

/-- param-hl.c:1248-1252. -/
def fixForecast (p : Par) : Par :=
  if p.onrt && decide (p.fitMin = p.fitMax) then { p with onrt := false } else p

/-- param-hl.c:1254-1257: days of 1900-01-01 and 2100-12-31. -/
def fixRange (p : Par) : Par :=
  if p.fitMin = p.fitMax then { p with fitMin := Date.date2ce 1900 1 1, fitMax := Date.date2ce 2100 12 31 } else p

/-- param-hl.c:1273-1279. -/
def fixPyp (p : Par) : Par :=
  let p := if p.pypOut && !p.pypCode then { p with pypOut := false } else p
  if !p.pypOut && p.pypCode then { p with pypCode := false } else p

/-- param-hl.c:1281-1287. -/
def fixRsp (p : Par) : Par :=
  let p := if p.rspOut && !p.rspCode then { p with rspOut := false } else p
  if !p.rspOut && p.rspCode then { p with rspCode := false } else p

/-- param-hl.c:1289-1292. -/
def fixStream (p : Par) : Par :=
  if p.rspOut && p.stream then { p with stream := false } else p

/-- param-hl.c:1236-1240. -/
def smaOk (p : Par) : Bool :=
  !(p.indices.contains "SMA" && !p.pos && !p.sto) && !(!p.emb && p.indices.contains "SMA")

/-- param-hl.c:1259-1270. -/
def polOk (p : Par) : Bool :=
  if p.opct || p.opol || p.otro || p.ocao then !decide (p.ns < 1) && !decide (p.method = .none) else true

/-- param-hl.c:1225-1294: the rules for this submodule; `none` is FAILURE. -/
def normalise (p : Par) : Option Par :=
  let p := fixRms p
  if smaOk p then
    let p := fixRange (fixForecast (fixNrt p))
    if polOk p then some (fixStream (fixRsp (fixPyp p))) else none
  else none

/-! ## Dates -/

/-- An image: its date (calendar and day number) and sensor. -/
structure Image where
  date : Date.DateT
  sensor : List Char

/-- tsa-hl.c:940-944: number of interpolation steps. The division is one of integers, `ceil` has no
effect. -/
def interSteps (m : Method) (nt : Nat) (dmin dmax step : Int) : Nat :=
  if m = .none then nt else ((dmax - dmin + 1).tdiv step).toNat

/-- tsa-hl.c:947-953: number of images after the end of the fitting period. -/
def forecastCount (onrt : Bool) (fitMax : Int) (images : List Image) : Nat :=
  if onrt then images.countP fun im => decide (im.date.ce > fitMax) else 0

/-- tsa-hl.c:484-492: the date of an interpolation step, as used for the computation. -/
def interDate (m : Method) (images : List Image) (dmin step : Int) (t : Nat) : Option Date.DateT :=
  if m = .none then images[t]?.map (·.date) else some (Date.setCe Date.initDate (dmin + t * step))

/-- tsa-hl.c:484-495: all of them. -/
def interDates (m : Method) (images : List Image) (dmin dmax step : Int) : List (Option Date.DateT) :=
  (List.range (interSteps m images.length dmin dmax step)).map (interDate m images dmin step)

/-- tsa-hl.c:667-671: the date with which an interpolated layer is labelled. -/
def interLabelDate (m : Method) (images : List Image) (dmin step : Int) (t : Nat) : Option Date.DateT :=
  if m = .none then images[t]?.map (·.date) else some (Date.setCe Date.initDate (dmin + t * step))

/-- interpolate-hl.c:638-676: the images of the near-real-time layers, in the order of the layers. -/
def nrtData (fitMax : Int) (images : List Image) : List Image :=
  images.filter fun im => !decide (im.date.ce ≤ fitMax)

/-- tsa-hl.c:649-650: the images with which the layers are labelled. -/
def nrtLabelled (nr : Nat) (images : List Image) : List (Option Image) :=
  (List.range nr).map fun t => images[(images.length - nr) + t]?

/-! ## Products -/

/-- tsa-hl.c:42. -/
inductive Kind where
  | full | stats | inter | nrt | year | quarter | month | week | day | pol | trd | cat | udf
deriving DecidableEq

/-- tsa-hl.c:31-40: one entry of the table of products. -/
structure Info where
  name : String
  kind : Kind
  enable : Bool
  write : Bool

/-- enum-cl.c:100-113. -/
def polTags : List String :=
  ["DEM", "DLM", "DPS", "DSS", "DMS", "DES", "DEV", "DAV", "DLV", "LTS", "LGS", "LGV", "VEM", "VLM", "VPS",
    "VSS", "VMS", "VES", "VEV", "VAV", "VLV", "VBL", "VGA", "VSA", "VPA", "VGM", "VGV", "DPY", "DPV", "IST",
    "IBL", "IBT", "IGS", "IRR", "IFR", "RAR", "RAF", "RMR", "RMF"]

/-- enum-cl.c:118-122. -/
def trdTags : List String :=
  ["MEAN", "OFFSET", "SLOPE", "PCT_GAIN", "ABS_GAIN", "RSQ", "SIG", "RMSE", "MAE", "MAXRES", "NUM", "LENGTH"]

/-- enum-cl.c:127-144: the part of the tags after TOTAL, BEFORE or AFTER. -/
def catParts : List String :=
  ["-MEAN", "-OFFSET", "-SLOPE", "-PCT-GAIN", "-ABS-GAIN", "-RSQ", "-SIG", "-RMSE", "-MAE", "-MAXRES", "-NUM", "-LENGTH"]

/-- enum-cl.c:124-144. -/
def catTags : List String :=
  ["CHANGE", "LOSS", "YEAR-OF-CHANGE"] ++ ["TOTAL", "BEFORE", "AFTER"].flatMap fun a => catParts.map fun b => a ++ b

/-- tsa-hl.c:125-293 `info_fby`, `info_fbq`, `info_fbm`, `info_fbw`, `info_fbd`. -/
def foldInfos (fb tr ca : String) (k : Kind) (f : Fold3) : List Info :=
  [⟨fb, k, f.fb || f.tr || f.ca, f.fb⟩, ⟨tr, .trd, f.tr, f.tr⟩, ⟨ca, .cat, f.ca, f.ca⟩]

/-- tsa-hl.c:295-357 `info_pol`; param-hl.c:641-648: `use`. -/
def polInfos (p : Par) : List Info :=
  [⟨"PCX", .inter, p.opct, p.opct⟩, ⟨"PCY", .inter, p.opct, p.opct⟩] ++
  (polTags.map fun l => ⟨l ++ "-POL", .pol, p.pol.contains l && (p.opol || p.otro || p.ocao), p.pol.contains l && p.opol⟩) ++
  (polTags.map fun l => ⟨l ++ "-TRO", .trd, p.pol.contains l && p.otro, p.pol.contains l && p.otro⟩) ++
  (polTags.map fun l => ⟨l ++ "-CAO", .cat, p.pol.contains l && p.ocao, p.pol.contains l && p.ocao⟩)

/-- tsa-hl.c:52-123, 360-389, 593-605: the table of products. -/
def infos (p : Par) : List Info :=
  [⟨"TSS", .full, true, p.otss⟩, ⟨"NRT", .nrt, p.onrt, p.onrt⟩, ⟨"RMS", .full, p.orms, p.orms⟩,
    ⟨"TSI", .inter, true, p.otsi⟩, ⟨"STM", .stats, p.ostm, p.ostm⟩] ++
  foldInfos "FBY" "TRY" "CAY" .year p.fby ++ foldInfos "FBQ" "TRQ" "CAQ" .quarter p.fbq ++
  foldInfos "FBM" "TRM" "CAM" .month p.fbm ++ foldInfos "FBW" "TRW" "CAW" .week p.fbw ++
  foldInfos "FBD" "TRD" "CAD" .day p.fbd ++ polInfos p ++
  [⟨"PYP", .udf, p.pypOut, p.pypOut⟩, ⟨"RSP", .udf, p.rspOut, p.rspOut⟩]

/-- tsa-hl.c:575-584: number of entries that are allocated. -/
def nprod : Nat := 5 + 5 + 5 + 5 + 2 + 39 + 39 + 39 + 1 + 1

/-- tsa-hl.c:617-621, 777-781, 875-879: the products of an index that are computed (have memory). -/
def computed (p : Par) : List Info := (infos p).filter (·.enable)

/-- The products of an index that are written. -/
def written (p : Par) : List Info := (computed p).filter (·.write)

/-! ## Names -/

/-- tsa-hl.c:864-870: name of the file of a product, after the part that is the same for all. -/
def fileName (pre index prod : List Char) : List Char := pre ++ index ++ '_' :: prod

/-- All files of a run, one per index and product. -/
def files (pre : List Char) (p : Par) : List (List Char) :=
  p.indices.flatMap fun i => (written p).map fun o => fileName pre i.toList o.name.toList

/-- date-cl.c:343-353 `compact_date`. -/
def compact (y m d : Int) : List Char := Libc.fmtInt0 4 y ++ Libc.fmtInt0 2 m ++ Libc.fmtInt0 2 d

/-- What the labels are made of. `umetrics`: names of the bands given by user code. -/
structure Ctx where
  images : List Image
  dmin : Date.DateT
  dmax : Date.DateT
  step : Int
  method : Method
  onrt : Bool
  fitMax : Int
  metrics : List (List Char)
  win : Season.Window
  umetrics : List (List Char)

/-- tsa-hl.c:639-642, 652-655. -/
def imageLabel (im : Image) : List Char :=
  compact im.date.year im.date.month im.date.day ++ '_' :: im.sensor

/-- tsa-hl.c:625-626, 680, 743: `set_date_year` on 2000-01-01. -/
def yearLabel (ymin : Int) (t : Nat) : List Char :=
  "YEAR-".toList ++ Libc.fmtInt0 4 (Date.setYear (Date.setDate Date.initDate 2000 1 1) (ymin + t)).year

/-- tsa-hl.c:625-626: the date before the loop over the bands. -/
def start : Date.DateT := Date.setDate Date.initDate 2000 1 1

/-- tsa-hl.c:632-771: the labels of the bands of a product. `none`: access beyond the images. The
setters for day, week, month and quarter do not depend on the date before, hence `start`. -/
def labels (c : Ctx) (k : Kind) : List (Option (List Char)) :=
  let nt := c.images.length
  let nr := forecastCount c.onrt c.fitMax c.images
  let ny := (c.dmax.year - c.dmin.year + 1).toNat
  match k with
  | .full => (List.range nt).map fun t => c.images[t]?.map imageLabel
  | .nrt => (nrtLabelled nr c.images).map fun im => im.map imageLabel
  | .stats => c.metrics.map some
  | .inter => (List.range (interSteps c.method nt c.dmin.ce c.dmax.ce c.step)).map fun t =>
      (interLabelDate c.method c.images c.dmin.ce c.step t).map fun d => compact d.year d.month d.day
  | .year => (List.range ny).map fun t => some (yearLabel c.dmin.year t)
  | .quarter => (Season.labels c.win.quarters 4 c.win.nq).map fun k =>
      some ("QUARTER-".toList ++ Libc.fmtInt0 1 (Date.setQuarter start k).quarter)
  | .month => (Season.labels c.win.months 12 c.win.nm).map fun k =>
      some ("MONTH-".toList ++ Libc.fmtInt0 2 (Date.setMonth start k).month)
  | .week => (Season.labels c.win.weeks 52 c.win.nw).map fun k =>
      some ("WEEK-".toList ++ Libc.fmtInt0 2 (Date.setWeek start k).week)
  | .day => (Season.labels c.win.days 365 c.win.nd).map fun k =>
      some ("DOY-".toList ++ Libc.fmtInt0 3 (Date.setDoy start k).doy)
  | .pol => (List.range ny).map fun t => some (yearLabel c.dmin.year t)
  | .trd => trdTags.map fun s => some s.toList
  | .cat => catTags.map fun s => some s.toList
  | .udf => c.umetrics.map some

/-- brick_io-cl.cpp:241-250: with OUTPUT_EXPLODE each band has its file. -/
def bandFiles (pre : List Char) (p : Par) (c : Ctx) : List (Option (List Char)) :=
  p.indices.flatMap fun i => (written p).flatMap fun o =>
    (labels c o.kind).map fun l => l.map fun l => fileName pre i.toList o.name.toList ++ '_' :: l

/-! ## Harmonic interpolation (one pixel) -/

/-- Parameters of the model: trend, number of modes, fitting period. -/
structure Harm where
  trend : Bool
  modes : Nat
  fitMin : Int
  fitMax : Int
  onrt : Bool

/-- interpolate-hl.c:484-514: number of coefficients. -/
def nCoef (h : Harm) : Nat :=
  1 + (if h.trend then 1 else 0) + (if 1 ≤ h.modes then 2 else 0) + (if 2 ≤ h.modes then 2 else 0) +
    (if 3 ≤ h.modes then 2 else 0)

/-- interpolate-hl.c:579-592: cosine and sine with a period, as in `cos(n * M_PI / 365 * ce)`; exact
arithmetic. -/
noncomputable def wave (n : ℝ) (ce : Int) : List ℝ :=
  [Real.cos (n * Real.pi / 365 * ce), Real.sin (n * Real.pi / 365 * ce)]

/-- interpolate-hl.c:573-592, 609-628, 648-667: the row of a date. -/
noncomputable def row (h : Harm) (ce : Int) : List ℝ :=
  [1] ++ (if h.trend then [(ce : ℝ)] else []) ++ (if 1 ≤ h.modes then wave 2 ce else []) ++
    (if 2 ≤ h.modes then wave 4 ce else []) ++ (if 3 ≤ h.modes then wave 6 ce else [])

/-- `gsl_multifit_robust_est`: product of row and coefficients. -/
noncomputable def dot (x c : List ℝ) : ℝ := (List.zipWith (· * ·) x c).sum

/-- interpolate-hl.c:542-545, 565-569: an observation that is used (date, value). -/
def usable (h : Harm) (nodata : Int) (o : Int × Int) : Bool :=
  !(decide (o.2 = nodata) || decide (o.1 < h.fitMin) || decide (o.1 > h.fitMax))

/-- interpolate-hl.c:540-550, 563-601: the observations that are used. -/
def fitted (h : Harm) (nodata : Int) (series : List (Int × Int)) : List (Int × Int) :=
  series.filter (usable h nodata)

/-- interpolate-hl.c:604: the coefficients; `fit` is the robust regression of the GSL. -/
noncomputable def coefs (fit : List (List ℝ) → List ℝ → List ℝ) (h : Harm) (nodata : Int) (series : List (Int × Int)) :
    List ℝ :=
  fit ((fitted h nodata series).map fun o => row h o.1) ((fitted h nodata series).map fun o => (o.2 : ℝ))

/-- interpolate-hl.c:642-672: one near-real-time value. -/
noncomputable def residual (h : Harm) (nodata : Int) (c : List ℝ) (o : Int × Int) : Out Int :=
  if o.2 = nodata then .ok nodata else Fold.shortOf (some (o.2 - dot (row h o.1) c))

/-- The observations in the forecast period, interpolate-hl.c:640. -/
def after (h : Harm) (series : List (Int × Int)) : List (Int × Int) :=
  series.filter fun o => !decide (o.1 ≤ h.fitMax)

/-- interpolate-hl.c:533-685: interpolated values and near-real-time values of one pixel. The memory
of the near-real-time product is zero at first (alloc-cl.c:41 `calloc`). -/
noncomputable def harmonic (fit : List (List ℝ) → List ℝ → List ℝ) (h : Harm) (nodata : Int) (mask : Bool)
    (series : List (Int × Int)) (dates : List Int) : List (Out Int) × List (Out Int) :=
  let zeros := if h.onrt then (after h series).map fun _ => Out.ok 0 else []
  if !mask then (dates.map fun _ => Out.ok nodata, zeros)
  else if (fitted h nodata series).length < nCoef h then (dates.map fun _ => Out.ok nodata, zeros)
  else
    let c := coefs fit h nodata series
    (dates.map fun d => Fold.shortOf (some (dot (row h d) c)),
      if h.onrt then (after h series).map (residual h nodata c) else [])

end Verif.Tsa
