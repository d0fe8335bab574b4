import Mathlib.Analysis.Real.Sqrt
import Mathlib.Algebra.Order.Floor.Ring
import Mathlib.Data.List.Sort
import Verif.Str.Model
import Verif.Date.Model
import Verif.Season.Model

/-!
# Model of the temporal aggregation (one pixel)

`src/modules/higher-level/fold-hl.c`, `src/modules/higher-level/stm-hl.c`, `parse_sta` of
`src/modules/higher-level/param-hl.c`, and the dates of the folded layers in
`src/modules/higher-level/tsa-hl.c`.

Pixels are independent of each other (each is written by one thread only), so one pixel is modelled.
`double` arithmetic is exact arithmetic followed by the rounding `rd` (a parameter; `rd = id` is exact
arithmetic). A number that is not finite (division by zero) is `none`.
-/

namespace Verif.Fold

open Verif.Str (Out)
open Verif.Date (DateT)

/-- cross-level/enum-cl.h:162-179: the statistics; `q k` is `_STA_Q01_ + k - 1`, the `k`-th percentile. -/
inductive Sta where
  | min | max | rng | iqr | avg | std | skw | krt | q (k : Nat) | num
deriving DecidableEq, Repr

/-- fold-hl.c:31: the aggregation periods. -/
inductive Per where
  | year | quarter | month | week | doy
deriving DecidableEq, Repr

/-- The arithmetic: rounding of `double` results, and `quantile` of stats-cl.c:669-677 (which sorts the
array and calls the GSL library; a function of the sorted values and the percentage). -/
structure Env where
  rd : ℝ → ℝ
  quant : List Int → Nat → ℝ

/-- C conversion of a floating-point number to an integer type: truncation towards zero. -/
noncomputable def truncR (x : ℝ) : Int := if 0 ≤ x then ⌊x⌋ else ⌈x⌉

/-- `(short)` of a `double`: undefined if the number is not finite or its truncation is out of range. -/
noncomputable def shortOf : Option ℝ → Out Int
  | none => .ub
  | some x => if -32768 ≤ truncR x ∧ truncR x ≤ 32767 then .ok (truncR x) else .ub

/-- Conversion of an `int` to `short` (modulo 2^16, as implemented by gcc). -/
def wrapShort (x : Int) : Int := (x + 32768) % 65536 - 32768

/-- The local variables of the loops fold-hl.c:83-129 and stm-hl.c:76-97. -/
structure Acc where
  mini : Int
  maxi : Int
  n : Nat
  q : List Int
  mean : ℝ
  var : ℝ
  skew : ℝ
  kurt : ℝ

/-- fold-hl.c:83-84, stm-hl.c:76-77. -/
def acc0 : Acc := ⟨32767, -32768, 0, [], 0, 0, 0, 0⟩

/-- stats-cl.c:131-147 `kurt_recurrence` with the rounding of every operation: new mean, second, third
and fourth moment. -/
noncomputable def kurtRec (rd : ℝ → ℝ) (x mx vx sx kx n : ℝ) : ℝ × ℝ × ℝ × ℝ :=
  let delta := rd (x - mx)
  let deltaN := rd (delta / n)
  let deltaN2 := rd (deltaN * deltaN)
  let tmp := rd (rd (delta * deltaN) * rd (n - 1))
  let mx' := rd (mx + deltaN)
  let kx' := rd (rd (rd (kx + rd (rd (tmp * deltaN2) * rd (rd (rd (n * n) - rd (3 * n)) + 3))) +
    rd (rd (6 * deltaN2) * vx)) - rd (rd (4 * deltaN) * sx))
  let sx' := rd (rd (sx + rd (rd (tmp * deltaN) * rd (n - 2))) - rd (rd (3 * deltaN) * vx))
  let vx' := rd (vx + tmp)
  (mx', vx', sx', kx')

/-- fold-hl.c:116-127, stm-hl.c:84-95: one valid value. (`q_array` is filled only if it is needed; its
length is the number of time steps, so it cannot overflow.) -/
noncomputable def accStep (rd : ℝ → ℝ) (v : Int) (a : Acc) : Acc :=
  let n := a.n + 1
  let r := kurtRec rd v a.mean a.var a.skew a.kurt n
  { mini := if v < a.mini then v else a.mini
    maxi := if v > a.maxi then v else a.maxi
    n := n
    q := a.q ++ [v]
    mean := r.1
    var := r.2.1
    skew := r.2.2.1
    kurt := r.2.2.2 }

/-- fold-hl.c:89-111: is the date in the period of the folded date? -/
def inPeriod (by_ : Per) (d f : DateT) : Bool :=
  match by_ with
  | .year => d.year == f.year
  | .quarter => d.quarter == f.quarter
  | .month => d.month == f.month
  | .week => d.week == f.week
  | .doy => d.doy == f.doy

/-- fold-hl.c:87-129: the loop over the time series. -/
noncomputable def foldLoop (rd : ℝ → ℝ) (by_ : Per) (nodata : Int) (f : DateT) :
    List (DateT × Int) → Acc → Acc
  | [], a => a
  | (d, v) :: ts, a =>
    if !inPeriod by_ d f then foldLoop rd by_ nodata f ts a
    else if v = nodata then foldLoop rd by_ nodata f ts a
    else foldLoop rd by_ nodata f ts (accStep rd v a)

/-- stats-cl.c:278-281 `standdev(var, n)`. -/
noncomputable def standdev (rd : ℝ → ℝ) (var n : ℝ) : Option ℝ :=
  if rd (n - 1) = 0 then none else some (rd (Real.sqrt (rd (var / rd (n - 1)))))

/-- stats-cl.c:242-245 `skewness(var, skew, n)`. -/
noncomputable def skewness (rd : ℝ → ℝ) (var skew n : ℝ) : Option ℝ :=
  match standdev rd var (rd (n + 1)) with
  | none => none
  | some s =>
    if rd (n * rd (s ^ 3)) = 0 then none else some (rd (skew / rd (n * rd (s ^ 3))))

/-- stats-cl.c:223-226 `kurtosis(var, kurt, n)`. -/
noncomputable def kurtosis (rd : ℝ → ℝ) (var kurt n : ℝ) : Option ℝ :=
  if rd (rd (n + 1) - 1) = 0 then none
  else
    let v := rd (var / rd (rd (n + 1) - 1))
    if rd (rd (n * v) * v) = 0 then none else some (rd (kurt / rd (rd (n * v) * v)))

/-- fold-hl.c:156-157: comparison with a number that is not finite leaves it unchanged (the numerators
are zero whenever the denominators are, the quotient is NaN). -/
noncomputable def clamp : Option ℝ → Option ℝ
  | none => none
  | some x => some (if x < -30000 then -30000 else if x > 30000 then 30000 else x)

/-- fold-hl.c:155-157, stm-hl.c:101-104. -/
noncomputable def skewScaled (rd : ℝ → ℝ) (a : Acc) : Option ℝ :=
  clamp ((skewness rd a.var a.skew a.n).map fun s => rd (s * 1000))

/-- fold-hl.c:161-163, stm-hl.c:102-106. -/
noncomputable def kurtScaled (rd : ℝ → ℝ) (a : Acc) : Option ℝ :=
  clamp ((kurtosis rd a.var a.kurt a.n).map fun k => rd (rd (k - 3) * 1000))

/-- `quantile(q_array, n, k/100)`. -/
noncomputable def quantile (E : Env) (a : Acc) (k : Nat) : ℝ := E.quant (a.q.insertionSort (· ≤ ·)) k

/-- fold-hl.c:132-179: the folded value. -/
noncomputable def foldValue (E : Env) (sta : Sta) (nodata : Int) (a : Acc) : Out Int :=
  if a.n > 0 then
    match sta with
    | .num => .ok (wrapShort a.n)
    | .avg => shortOf (some a.mean)
    | .min => .ok a.mini
    | .max => .ok a.maxi
    | .rng => .ok (wrapShort (a.maxi - a.mini))
    | .std => shortOf (standdev E.rd a.var a.n)
    | .skw => shortOf (skewScaled E.rd a)
    | .krt => shortOf (kurtScaled E.rd a)
    | .iqr => shortOf (some (quantile E a 75 - quantile E a 25))
    | .q k => shortOf (some (quantile E a k))
  else .ok nodata

/-- fold-hl.c:73-181 for one pixel: the folded values; `mask` is true if there is no mask. -/
noncomputable def foldPixel (E : Env) (sta : Sta) (by_ : Per) (nodata : Int) (mask : Bool)
    (series : List (DateT × Int)) (folds : List DateT) : List (Out Int) :=
  if !mask then folds.map fun _ => .ok nodata
  else folds.map fun f => foldValue E sta nodata (foldLoop E.rd by_ nodata f series acc0)

/-! ## Dates of the folded layers -/

/-- tsa-hl.c:497-502: `d_fby`; `date` is the date of the previous statement. -/
def yearDates (date : DateT) (ymin : Int) (ny : Nat) : List DateT :=
  (List.range ny).map fun t : Nat => Date.setYear date (ymin + t)

/-- tsa-hl.c:504-538: the dates of the labels `k`, with the setter `set`. The variable `date` is carried
over from one layer to the next. -/
def carry (set : DateT → Int → DateT) : List Int → DateT → List DateT
  | [], _ => []
  | k :: ks, date => set date k :: carry set ks (set date k)

/-- tsa-hl.c:497-538: the folded dates of a period, for the window `w` and the first and number of
years. -/
def foldDates (by_ : Per) (w : Season.Window) (ymin : Int) (ny : Nat) (date : DateT) : List DateT :=
  match by_ with
  | .year => yearDates date ymin ny
  | .quarter => carry Date.setQuarter (Season.labels w.quarters 4 w.nq) date
  | .month => carry Date.setMonth (Season.labels w.months 12 w.nm) date
  | .week => carry Date.setWeek (Season.labels w.weeks 52 w.nw) date
  | .doy => carry Date.setDoy (Season.labels w.days 365 w.nd) date

/-! ## Spectral temporal metrics -/

/-- param-hl.h:214-229 `par_sta_t`: the output layer of each statistic, -1 if not requested; `qs`:
`qxx` and `q` (in percent). -/
structure StaPar where
  num : Int
  min : Int
  max : Int
  rng : Int
  iqr : Int
  avg : Int
  std : Int
  skw : Int
  krt : Int
  qs : List (Int × Nat)

/-- param-hl.c:602-629: the loop over the requested statistics; the arrays `qxx`, `q` have 100
elements. -/
def parseLoop : List Sta → Int → StaPar → Out StaPar
  | [], _, s => .ok s
  | m :: ms, i, s =>
    match m with
    | .num => parseLoop ms (i + 1) { s with num := i }
    | .min => parseLoop ms (i + 1) { s with min := i }
    | .max => parseLoop ms (i + 1) { s with max := i }
    | .rng => parseLoop ms (i + 1) { s with rng := i }
    | .iqr => parseLoop ms (i + 1) { s with iqr := i }
    | .avg => parseLoop ms (i + 1) { s with avg := i }
    | .std => parseLoop ms (i + 1) { s with std := i }
    | .skw => parseLoop ms (i + 1) { s with skw := i }
    | .krt => parseLoop ms (i + 1) { s with krt := i }
    | .q k =>
      if s.qs.length < 100 then parseLoop ms (i + 1) { s with qs := s.qs ++ [(i, k)] } else .ub

/-- param-hl.c:591-633 `parse_sta`. All layers are reset to -1, except `num`: it keeps its content,
which is 0 because the parameters are allocated with `calloc` (param-hl.c:788-795). -/
def parseSta (metrics : List Sta) : Out StaPar :=
  parseLoop metrics 0 ⟨0, -1, -1, -1, -1, -1, -1, -1, -1, []⟩

/-- `if (i > -1) stm_[i][p] = v`: undefined outside of the layers. -/
def put (i : Int) (v : Out Int) (b : List Int) : Out (List Int) :=
  if i > -1 then v.bind fun v => if i < b.length then .ok (b.set i.toNat v) else .ub else .ok b

/-- stm-hl.c:80-97: the loop over the time series. -/
noncomputable def stmLoop (rd : ℝ → ℝ) (nodata : Int) : List Int → Acc → Acc
  | [], a => a
  | v :: vs, a => if v = nodata then stmLoop rd nodata vs a else stmLoop rd nodata vs (accStep rd v a)

/-- stm-hl.c:117-121: the quantiles; result: layers, `q25_`, `q75_`. -/
noncomputable def quantLoop (E : Env) (a : Acc) :
    List (Int × Nat) → List Int × Int × Int → Out (List Int × Int × Int)
  | [], s => .ok s
  | (i, k) :: qs, (b, q25, q75) =>
    (shortOf (some (quantile E a k))).bind fun v =>
      if 0 ≤ i ∧ i < b.length then
        quantLoop E a qs (b.set i.toNat v, (if k = 25 then v else q25), (if k = 75 then v else q75))
      else .ub

/-- stm-hl.c:124-128: the inter-quartile range. -/
noncomputable def putIqr (E : Env) (a : Acc) (i : Int) (s : List Int × Int × Int) : Out (List Int) :=
  if i > -1 then
    (if s.2.1 = -32768 then shortOf (some (quantile E a 25)) else .ok s.2.1).bind fun q25 =>
      (if s.2.2 = -32768 then shortOf (some (quantile E a 75)) else .ok s.2.2).bind fun q75 =>
        put i (.ok (wrapShort (q75 - q25))) s.1
  else .ok s.1

/-- stm-hl.c:100-128: all metrics. -/
noncomputable def stmWrite (E : Env) (s : StaPar) (a : Acc) (b : List Int) : Out (List Int) :=
  (put s.num (.ok (wrapShort a.n)) b).bind fun b =>
  (put s.min (.ok a.mini) b).bind fun b =>
  (put s.max (.ok a.maxi) b).bind fun b =>
  (put s.rng (.ok (wrapShort (a.maxi - a.mini))) b).bind fun b =>
  (put s.avg (shortOf (some a.mean)) b).bind fun b =>
  (put s.std (shortOf (standdev E.rd a.var a.n)) b).bind fun b =>
  (put s.skw (shortOf (skewScaled E.rd a)) b).bind fun b =>
  (put s.krt (shortOf (kurtScaled E.rd a)) b).bind fun b =>
  (quantLoop E a s.qs (b, -32768, -32768)).bind fun r =>
  putIqr E a s.iqr r

/-- stm-hl.c:69-131 for one pixel; `b` is the content of the layers before (one per requested metric). -/
noncomputable def tsaStm (E : Env) (s : StaPar) (nodata : Int) (mask : Bool) (series : List Int)
    (b : List Int) : Out (List Int) :=
  if !mask then .ok (b.map fun _ => nodata)
  else
    let a := stmLoop E.rd nodata series acc0
    if a.n > 0 then stmWrite E s a b else .ok (b.map fun _ => nodata)

end Verif.Fold
