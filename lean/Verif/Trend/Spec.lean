import Mathlib.Order.Bounds.Basic
import Verif.Fold.Spec
import Verif.Trend.Model

/-!
# Specification of standardization, trend and change
-/

namespace Verif.Trend.Spec

open Verif.Stats.Spec
open Verif.Fold.Spec (IntPart reals std)

/-- The valid values of a series. -/
def valid (nodata : Int) (ts : List Int) : List Int := ts.filter fun v => v ≠ nodata

/-- Limited to the range of a 16-bit integer. -/
noncomputable def clamp (x : ℝ) : ℝ := max (-32768) (min 32767 x)

/-- The valid layers as pairs of time (since `t0`) and value. -/
def observations (nodata t0 : Int) (l : List Layer) : List (ℝ × ℝ) :=
  (l.filter fun f => f.v ≠ nodata).map fun f => ((f.t : ℝ) - t0, (f.v : ℝ))

/-- `a + s * x` is a line of best fit. -/
def BestFit (pts : List (ℝ × ℝ)) (a s : ℝ) : Prop := ∀ a' s', sse pts a s ≤ sse pts a' s'

/-- Absolute residual of an observation. -/
noncomputable def resid (a s : ℝ) (p : ℝ × ℝ) : ℝ := |p.2 - (a + s * p.1)|

/-- Standard error of the slope. -/
noncomputable def slopeError (pts : List (ℝ × ℝ)) (a s : ℝ) : ℝ :=
  Real.sqrt (sse pts a s / (pts.length - 2)) / Real.sqrt (moment 2 (pts.map Prod.fst))

/-- Result of the t-test with critical value `c` for the statistic `t`. `tail`: left (-1), right (1), both (0). -/
noncomputable def tTest (tail : Int) (c t : ℝ) : Int :=
  if tail = -1 then (if t ≤ c then -1 else 0)
  else if tail = 1 then (if t ≥ c then 1 else 0)
  else if tail = 0 then (if t ≤ -c then -1 else if t ≥ c then 1 else 0)
  else 0

/-- `b` is the trend of the observations `pts` in (a part of) a time series of `n` layers that begins at time `x0`: all
bands are the integer parts of the textbook quantities. -/
structure IsTrend (tcrit : Nat → Option ℝ) (tail : Int) (pts : List (ℝ × ℝ)) (n : Nat) (x0 a s : ℝ)
    (b : Bands Int) : Prop where
  best : BestFit pts a s
  mean : IntPart (mean (pts.map Prod.snd)) b.mean
  offset : IntPart (a + s * x0) b.offset
  slope : IntPart s b.slope
  absGain : IntPart (s * n) b.absGain
  prcGain : IntPart (if 0 < a + s * x0 then s * n / (a + s * x0) * 100 else 0) b.prcGain
  rsq : IntPart (10000 * (1 - sse pts a s / moment 2 (pts.map Prod.snd))) b.rsq
  sig : ∀ c, tcrit pts.length = some c → 0 < sse pts a s → b.sig = tTest tail c (s / slopeError pts a s)
  rmse : IntPart (Real.sqrt (sse pts a s / pts.length)) b.rmse
  mae : IntPart ((pts.map (resid a s)).sum / pts.length) b.mae
  maxe : ∃ m, IsGreatest {e | ∃ p ∈ pts, e = resid a s p} m ∧ IntPart m b.maxe
  num : b.num = pts.length
  len : b.len = n

/-- The decreases from each valid value to the next valid one, with the layer of the latter. -/
def Drop (nodata : Int) (l : List Layer) (f : Nat) (d : Int) : Prop :=
  ∃ g, g < f ∧ ∃ (x y : Layer), l[g]? = some x ∧ l[f]? = some y ∧ x.v ≠ nodata ∧ y.v ≠ nodata ∧
    (∀ (h : Nat) (z : Layer), g < h → h < f → l[h]? = some z → z.v = nodata) ∧ d = x.v - y.v

end Verif.Trend.Spec
