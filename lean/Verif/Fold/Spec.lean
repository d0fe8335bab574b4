import Verif.Stats.Spec
import Verif.Fold.Model
import Verif.FloatErr

/-!
# Specification of the temporal aggregation
-/

namespace Verif.Fold.Spec

open Verif.Date (DateT)
open Verif.Stats.Spec

/-- The period a date belongs to. -/
def period : Per → DateT → Int
  | .year, d => d.year
  | .quarter, d => d.quarter
  | .month, d => d.month
  | .week, d => d.week
  | .doy, d => d.doy

/-- The valid values of a time series whose date is in the given period, in order of time. -/
def selected (by_ : Per) (nodata p : Int) (series : List (DateT × Int)) : List Int :=
  (series.filter fun o => period by_ o.1 = p ∧ o.2 ≠ nodata).map Prod.snd

/-- The integer part of `x` is `r`. -/
def IntPart (x : ℝ) (r : Int) : Prop :=
  if 0 ≤ x then (r : ℝ) ≤ x ∧ x < r + 1 else x ≤ r ∧ (r : ℝ) - 1 < x

/-- Values as real numbers. -/
def reals (vs : List Int) : List ℝ := vs.map fun v : Int => (v : ℝ)

/-- Limited to ±30000. -/
noncomputable def limit (x : ℝ) : ℝ := max (-30000) (min 30000 x)

/-- Skewness: third standardised moment. -/
noncomputable def skewness (l : List ℝ) : ℝ :=
  (moment 3 l / l.length) / Real.sqrt (moment 2 l / l.length) ^ 3

/-- Excess kurtosis: fourth standardised moment minus three. -/
noncomputable def kurtosis (l : List ℝ) : ℝ :=
  (moment 4 l / l.length) / (moment 2 l / l.length) ^ 2 - 3

/-- Sample standard deviation. -/
noncomputable def std (l : List ℝ) : ℝ := Real.sqrt (moment 2 l / (l.length - 1))

/-- `r` is the statistic of the values `vs`; `quant l k` is the `k`-th percentile of a sorted list. -/
def IsStat (quant : List Int → Nat → ℝ) : Sta → List Int → Int → Prop
  | .num, vs, r => r = vs.length
  | .min, vs, r => r ∈ vs ∧ ∀ v ∈ vs, r ≤ v
  | .max, vs, r => r ∈ vs ∧ ∀ v ∈ vs, v ≤ r
  | .rng, vs, r => ∃ lo ∈ vs, ∃ hi ∈ vs, (∀ v ∈ vs, lo ≤ v ∧ v ≤ hi) ∧ r = hi - lo
  | .avg, vs, r => IntPart (mean (reals vs)) r
  | .std, vs, r => IntPart (std (reals vs)) r
  | .skw, vs, r => IntPart (limit (skewness (reals vs) * 1000)) r
  | .krt, vs, r => IntPart (limit (kurtosis (reals vs) * 1000)) r
  | .q k, vs, r => IntPart (quant (vs.insertionSort (· ≤ ·)) k) r
  | .iqr, vs, r =>
    IntPart (quant (vs.insertionSort (· ≤ ·)) 75 - quant (vs.insertionSort (· ≤ ·)) 25) r

/-- Conditions under which the statistic exists and fits into 16 bits. -/
def Fits (quant : List Int → Nat → ℝ) : Sta → List Int → Prop
  | .num, vs => vs.length ≤ 32767
  | .rng, vs => ∀ a ∈ vs, ∀ b ∈ vs, b - a ≤ 32767
  | .std, vs => 2 ≤ vs.length ∧ std (reals vs) < 32768
  | .skw, vs | .krt, vs => ∃ a ∈ vs, ∃ b ∈ vs, a ≠ b
  | .q k, vs => ∃ a ∈ vs, ∃ b ∈ vs, (a : ℝ) ≤ quant (vs.insertionSort (· ≤ ·)) k ∧
      quant (vs.insertionSort (· ≤ ·)) k ≤ b
  | .iqr, vs =>
    |quant (vs.insertionSort (· ≤ ·)) 75 - quant (vs.insertionSort (· ≤ ·)) 25| < 32768
  | _, _ => True

/-- As `IsStat`, for the spectral temporal metrics: the inter-quartile range is the difference of the
integer parts of the quartiles. -/
def IsMetric (quant : List Int → Nat → ℝ) : Sta → List Int → Int → Prop
  | .iqr, vs, r => ∃ a b : Int, IntPart (quant (vs.insertionSort (· ≤ ·)) 25) a ∧
      IntPart (quant (vs.insertionSort (· ≤ ·)) 75) b ∧ r = b - a
  | m, vs, r => IsStat quant m vs r

/-- As `Fits`, for the spectral temporal metrics. -/
def MetricFits (quant : List Int → Nat → ℝ) : Sta → List Int → Prop
  | .iqr, vs =>
    (∃ a ∈ vs, ∃ b ∈ vs, (a : ℝ) ≤ quant (vs.insertionSort (· ≤ ·)) 25 ∧
      quant (vs.insertionSort (· ≤ ·)) 25 ≤ quant (vs.insertionSort (· ≤ ·)) 75 ∧
      quant (vs.insertionSort (· ≤ ·)) 75 ≤ b) ∧ ∀ a ∈ vs, ∀ b ∈ vs, b - a ≤ 32767
  | m, vs => Fits quant m vs

/-- 16-bit values. -/
def Shorts (vs : List Int) : Prop := ∀ v ∈ vs, -32768 ≤ v ∧ v ≤ 32767

/-- `rd` is a rounding to nearest of the 53-bit format, for rational arguments. -/
def Double (rd : ℝ → ℝ) : Prop :=
  ∀ x : ℚ, ∃ r : ℚ, rd x = r ∧ Verif.Float.Nearest 53 x r

end Verif.Fold.Spec
