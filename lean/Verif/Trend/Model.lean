import Verif.Fold.Model
import Verif.Stats.Model

/-!
# Model of standardization, trend and change analysis of a time series (one pixel)

`src/modules/higher-level/standardize-hl.c`, `src/modules/higher-level/trend-hl.c`.

Pixels are independent of each other, so one pixel is modelled. `double` arithmetic is exact arithmetic; the quotients
that can be 0/0 are undefined when they are converted to `short`.
-/

namespace Verif.Trend

open Verif.Str (Out)
open Verif.Fold (truncR shortOf)
open Verif.Stats (Co varLoop covarLoop covariance variance standdev linregCoefs linregRsquared linregPredict)

/-! ## Standardization -/

/-- param-hl.h: `_STD_NONE_`, `_STD_NORMAL_`, `_STD_CENTER_`. -/
inductive Method where
  | none | normal | center
deriving DecidableEq, Repr

/-- standardize-hl.c:87-89: a value is centred, scaled, clamped to the range of `short` and converted. `std = 0`:
0/0 is not a number, its conversion is undefined; another number divided by 0 is infinite, it is clamped. -/
noncomputable def stdValue (avg std : ℝ) (v : Int) : Out Int :=
  if std = 0 then
    (if (v : ℝ) - avg = 0 then .ub else if (v : ℝ) - avg > 0 then .ok 32767 else .ok (-32768))
  else
    let tmp := ((v : ℝ) - avg) / std
    let tmp := if tmp > 32767 then 32767 else tmp
    let tmp := if tmp < -32768 then -32768 else tmp
    .ok (truncR tmp)

/-- standardize-hl.c:82-90: the second loop. -/
noncomputable def stdLoop (nodata : Int) (avg std : ℝ) : List Int → Out (List Int)
  | [] => .ok []
  | v :: l =>
    if v = nodata then (stdLoop nodata avg std l).bind fun r => .ok (v :: r)
    else (stdValue avg std v).bind fun w => (stdLoop nodata avg std l).bind fun r => .ok (w :: r)

/-- standardize-hl.c:43-99 `standardize_timeseries`, one pixel. `valid`: the pixel is in the processing mask (or there
is none). -/
noncomputable def standardize (meth : Method) (nodata : Int) (valid : Bool) (ts : List Int) : Out (List Int) :=
  if meth = .none then .ok ts
  else if !valid then .ok ts
  else
    let r := varLoop ((ts.filter (· ≠ nodata)).map fun v : Int => (v : ℝ)) (0, 0, 0)
    if r.1 < 2 then .ok ts
    else stdLoop nodata r.2.1 (if meth = .normal then standdev r.2.2 r.1 / 10000 else 1) ts

/-! ## Trend -/

/-- A layer of the folded time series: year, quarter, month, week or day of its date (`by`), and value. -/
structure Layer where
  t : Int
  v : Int
deriving DecidableEq, Repr

/-- enum-cl.h:207-211: the output bands. -/
structure Bands (α : Type) where
  mean : α
  offset : α
  slope : α
  prcGain : α
  absGain : α
  rsq : α
  sig : α
  rmse : α
  mae : α
  maxe : α
  num : α
  len : α
deriving DecidableEq, Repr

/-- All bands have the same value. -/
def Bands.const (a : α) : Bands α := ⟨a, a, a, a, a, a, a, a, a, a, a, a⟩

/-- trend-hl.c:79-101: the layers that are not nodata; time relative to the first layer of the time series. -/
def points (nodata t0 : Int) (l : List Layer) : List (ℝ × ℝ) :=
  (l.filter fun f => f.v ≠ nodata).map fun f => (((f.t - t0 : Int) : ℝ), (f.v : ℝ))

/-- The sums of the residual loop. -/
structure Res where
  ssqe : ℝ
  sae : ℝ
  sxsq : ℝ
  maxe : ℝ

/-- trend-hl.c:148-153. -/
noncomputable def resStep (mx slp off : ℝ) (r : Res) (p : ℝ × ℝ) : Res :=
  let e := p.2 - linregPredict p.1 slp off
  { ssqe := r.ssqe + e * e
    sae := r.sae + |e|
    sxsq := r.sxsq + (p.1 - mx) * (p.1 - mx)
    maxe := if |e| > r.maxe then |e| else r.maxe }

/-- trend-hl.c:126-155. -/
noncomputable def residuals (mx slp off : ℝ) (pts : List (ℝ × ℝ)) : Res :=
  pts.foldl (resStep mx slp off) ⟨0, 0, 0, -32768⟩

/-- stats-cl.c:418-419: `b / seb <= c`; `seb = 0`: the quotient is infinite or not a number. -/
def tLe (b seb c : ℝ) : Prop := if seb = 0 then b < 0 else b / seb ≤ c

/-- stats-cl.c:418-423: `b / seb >= c`. -/
def tGe (b seb c : ℝ) : Prop := if seb = 0 then b > 0 else b / seb ≥ c

open Classical in
/-- stats-cl.c:412-427 `slope_significant` for `b0 = 0`; `tcrit`: the critical value, `none` if `tscore` fails.
`tail`: -1 (left), 0 (two-tailed), 1 (right). -/
noncomputable def slopeSignificant (tcrit : Option ℝ) (tail : Int) (b seb : ℝ) : Int :=
  match tcrit with
  | none => 0
  | some c =>
    if tail = -1 ∧ tLe b seb c then -1
    else if tail = 1 ∧ tGe b seb c then 1
    else if tail = 0 ∧ tLe b seb (-c) then -1
    else if tail = 0 ∧ tGe b seb c then 1
    else 0

/-- Number of points, means, coefficients and R² of the regression, and the product of the variances (`rsq` is
0/0 if it is 0, as are the coefficients if the variance of the times is 0). -/
structure Fit where
  k : Nat
  mx : ℝ
  my : ℝ
  slp : ℝ
  off : ℝ
  rsq : ℝ
  den : ℝ

/-- trend-hl.c:79-123. -/
noncomputable def fit (pts : List (ℝ × ℝ)) : Fit :=
  let r := covarLoop pts (0, ⟨0, 0, 0, 0, 0⟩)
  let cv := covariance r.2.cv r.1
  let vx := variance r.2.vx r.1
  let vy := variance r.2.vy r.1
  let c := linregCoefs r.2.mx r.2.my cv vx
  { k := r.1, mx := r.2.mx, my := r.2.my, slp := c.1, off := c.2,
    rsq := linregRsquared cv vx vy * 10000, den := vx * vy }

/-- The parameters of the significance test and of the time series: critical value for a number of samples, tail type,
whether the values are given in continuous days, nodata value. -/
structure Conf where
  tcrit : Nat → Option ℝ
  tail : Int
  inCe : Bool
  nodata : Int

/-- trend-hl.c:166: standard error of the slope. -/
noncomputable def stdErr (k : Nat) (r : Res) : ℝ := Real.sqrt (1 / ((k : ℝ) - 2) * r.ssqe) / Real.sqrt r.sxsq

/-- trend-hl.c:125-191: the values of the bands before their conversion. `n`: number of layers (`nf`). -/
noncomputable def trendRaw (c : Conf) (n : Nat) (pts : List (ℝ × ℝ)) (f : Fit) : Bands ℝ :=
  let r := residuals f.mx f.slp f.off pts
  let my := if c.inCe then f.my - ((365 * ((n : Int) - 1)).tdiv 2 : Int) else f.my
  let slp := if c.inCe then f.slp - 365 else f.slp
  let sig := slopeSignificant (c.tcrit f.k) c.tail slp (stdErr f.k r)
  let slp := if c.inCe then slp * 1000 else slp
  { mean := my
    offset := f.off
    slope := slp
    prcGain := if f.off > 0 then slp * n / f.off * 100 else 0
    absGain := slp * n
    rsq := f.rsq
    sig := (sig : ℝ)
    rmse := Real.sqrt (r.ssqe / f.k)
    mae := r.sae / f.k
    maxe := r.maxe
    num := (f.k : ℝ)
    len := (n : ℝ) }

/-- trend-hl.c:176-191: all bands are converted to `short`. -/
noncomputable def store (b : Bands ℝ) : Out (Bands Int) :=
  (shortOf (some b.mean)).bind fun mean =>
  (shortOf (some b.offset)).bind fun offset =>
  (shortOf (some b.slope)).bind fun slope =>
  (shortOf (some b.prcGain)).bind fun prcGain =>
  (shortOf (some b.absGain)).bind fun absGain =>
  (shortOf (some b.rsq)).bind fun rsq =>
  (shortOf (some b.sig)).bind fun sig =>
  (shortOf (some b.rmse)).bind fun rmse =>
  (shortOf (some b.mae)).bind fun mae =>
  (shortOf (some b.maxe)).bind fun maxe =>
  (shortOf (some b.num)).bind fun num =>
  (shortOf (some b.len)).bind fun len =>
  .ok ⟨mean, offset, slope, prcGain, absGain, rsq, sig, rmse, mae, maxe, num, len⟩

/-- `d_fld[0]`. -/
def start (l : List Layer) : Int := (l.head?.map (·.t)).getD 0

/-- trend-hl.c:50-198 `trend`, one pixel. `valid`: the pixel is in the processing mask (or there is none). -/
noncomputable def trend (c : Conf) (valid : Bool) (l : List Layer) : Out (Bands Int) :=
  if !valid then .ok (Bands.const c.nodata)
  else
    let pts := points c.nodata (start l) l
    let f := fit pts
    if f.k < 3 then .ok (Bands.const c.nodata)
    else if f.den = 0 then .ub
    else store (trendRaw c l.length pts f)

/-! ## Change -/

/-- trend-hl.c:254-256: value of the last layer before layer `f` that is not nodata. -/
def prevValid (nodata : Int) (l : List Layer) : Nat → Option Int
  | 0 => none
  | f + 1 =>
    match l[f]? with
    | none => none
    | some y => if y.v = nodata then prevValid nodata l f else some y.v

/-- trend-hl.c:262-264: value of the first layer after layer `f` that is not nodata. -/
def nextValid (nodata : Int) (l : List Layer) (f : Nat) : Option Int :=
  ((l.drop (f + 1)).find? fun y => y.v ≠ nodata).map (·.v)

/-- trend-hl.c:250-275: the body of the loop; state: `change`, `f_change`. Simplification: exact arithmetic. -/
def changeStep (penalty : Bool) (nodata : Int) (l : List Layer) (st : ℚ × Nat) (f : Nat) : ℚ × Nat :=
  match l[f]? with
  | none => st
  | some y =>
    if y.v = nodata then st
    else match prevValid nodata l f with
      | none => st
      | some pre =>
        let real : ℚ := pre - y.v
        if real > 0 ∧ penalty then
          match nextValid nodata l f with
          | none => st
          | some post => if real * (((pre : ℚ) - post) / 10000) > st.1 then (real, f) else st
        else if real > st.1 then (real, f) else st

/-- trend-hl.c:246-275. -/
def findChange (penalty : Bool) (nodata : Int) (l : List Layer) : ℚ × Nat :=
  (List.range' 1 (l.length - 1)).foldl (changeStep penalty nodata l) (-32768, 0)

/-- trend-hl.c:360-432: the bands of a part with at least three values, before their conversion. `lo`, `len`: first
layer and number of layers of the part, `n`: number of layers of the time series. -/
noncomputable def partRaw (c : Conf) (n lo len : Nat) (pts : List (ℝ × ℝ)) (f : Fit) : Bands ℝ :=
  let r := residuals f.mx f.slp f.off pts
  let slp := if c.inCe then (f.slp - 365) * 1000 else f.slp
  let yhat := linregPredict (lo : ℝ) slp f.off
  { mean := f.my
    offset := yhat
    slope := slp
    prcGain := if yhat > 0 then slp * len / yhat * 100 else 0
    absGain := slp * len
    rsq := f.rsq
    sig := (slopeSignificant (c.tcrit f.k) c.tail slp (stdErr f.k r) : ℝ)
    rmse := Real.sqrt (r.ssqe / f.k)
    mae := r.sae / f.k
    maxe := r.maxe
    num := (f.k : ℝ)
    len := (len : ℝ) }

/-- trend-hl.c:315-434: a part of the time series, layers `lo` to `hi - 1`. The mean is stored before it is corrected
for continuous days (355, 402), so it is not corrected. -/
noncomputable def part (c : Conf) (l : List Layer) (lo hi : Nat) : Out (Bands Int) :=
  let pts := points c.nodata (start l) ((l.take hi).drop lo)
  let f := fit pts
  if f.k < 1 then .ok (Bands.const c.nodata)
  else if f.k < 3 then
    (shortOf (some f.my)).bind fun my =>
      .ok { Bands.const c.nodata with mean := my, num := f.k, len := ((hi - lo : Nat) : Int) }
  else if f.den = 0 then .ub
  else store (partRaw c l.length lo (hi - lo) pts f)

/-- The output of the change and trend analysis. -/
structure Cat where
  change : Int
  loss : Int
  year : Int
  total : Bands Int
  before : Bands Int
  after : Bands Int
deriving DecidableEq, Repr

/-- trend-hl.c:241: all bands are nodata. -/
def Cat.const (a : Int) : Cat := ⟨a, a, a, .const a, .const a, .const a⟩

/-- trend-hl.c:437-443: change relative to the offset of the complete time series. -/
noncomputable def loss (change offset : Int) : Out Int :=
  if offset > 0 then shortOf (some ((change : ℝ) / offset * 100)) else .ok 0

/-- trend-hl.c:219-452 `cat`, one pixel. -/
noncomputable def cat (c : Conf) (penalty valid : Bool) (l : List Layer) : Out Cat :=
  if !valid then .ok (Cat.const c.nodata)
  else
    let ch := findChange penalty c.nodata l
    if ch.1 = -32768 then .ok (Cat.const c.nodata)
    else
      (shortOf (some (ch.1 : ℝ))).bind fun change =>
      (part c l 0 l.length).bind fun total =>
      (part c l 0 (ch.2 - 1)).bind fun before =>
      (part c l ch.2 l.length).bind fun after =>
      (loss change total.offset).bind fun loss =>
      .ok ⟨change, loss, ((l[ch.2]?).map (·.t)).getD 0, total, before, after⟩

end Verif.Trend
