import Mathlib.Algebra.BigOperators.Fin
import Mathlib.Algebra.BigOperators.Ring.Finset
import Mathlib.Data.List.Sort
import Mathlib.Data.List.Dedup
import Mathlib.Analysis.Real.Sqrt
import Mathlib.Data.Rat.Floor

/-!
# Model of force-map-accuracy and force-sample-size

`rstats/force-map-accuracy.r` and `rstats/force-sample-size.r`. Simplifications: numbers without rounding; the files are tables. Where R
computes 0/0 or divides by zero, the result is `none`. In the accuracy assessment, the table of pixel counts has as many classes as the
sample (R would repeat or cut the shorter one).
-/

namespace Verif.Assess


/-! ## force-map-accuracy -/

/-- force-map-accuracy.r:129-136: all classes of the sample, sorted; a sample is a pair of label_map and label_reference. -/
def classes (sample : List (Int × Int)) : List Int := (sample.map (·.1) ++ sample.map (·.2)).dedup.insertionSort (· ≤ ·)

/-- force-map-accuracy.r:151-164: the confusion matrix. -/
def confusion (sample : List (Int × Int)) (m r : Int) : Nat := sample.countP fun s => s.1 = m ∧ s.2 = r

/-- force-map-accuracy.r:217: the table of counts is sorted by class. -/
def arrange (count : List (Int × Nat)) : List (Int × Nat) := count.insertionSort fun a b => a.1 ≤ b.1

/-- force-map-accuracy.r:222-223: `!any(count$class == classes)` is an error. -/
def accepted (count : List (Int × Nat)) (cl : List Int) : Bool := (((arrange count).map (·.1)).zip cl).any fun p => p.1 = p.2

section matrix

variable {k : Nat}

/-- `rowSums`. -/
def rowSum (n : Fin k → Fin k → ℚ) (i : Fin k) : ℚ := ∑ j, n i j

/-- `colSums`. -/
def colSum (n : Fin k → Fin k → ℚ) (j : Fin k) : ℚ := ∑ i, n i j

/-- force-map-accuracy.r:166-168: at least two samples in each row. -/
def enough (n : Fin k → Fin k → ℚ) : Bool := decide (∀ i, ¬ rowSum n i < 2)

/-- A quotient in R. -/
def quot (a b : ℚ) : Option ℚ := if b = 0 then none else some (a / b)

/-- force-map-accuracy.r:171-211 `acc_metrics`: overall accuracy. -/
def oa (m : Fin k → Fin k → ℚ) : Option ℚ := quot (∑ i, m i i) (∑ i, ∑ j, m i j)

/-- force-map-accuracy.r:184-188: producer's accuracy. -/
def pa (m : Fin k → Fin k → ℚ) (j : Fin k) : Option ℚ := quot (m j j) (colSum m j)

/-- force-map-accuracy.r:190-194: user's accuracy. -/
def ua (m : Fin k → Fin k → ℚ) (i : Fin k) : Option ℚ := quot (m i i) (rowSum m i)

/-- force-map-accuracy.r:218: `weight`. -/
def weight (cnt : Fin k → ℚ) (i : Fin k) : ℚ := cnt i / ∑ l, cnt l

/-- force-map-accuracy.r:219: `area`. -/
def area (pixel : ℚ) (cnt : Fin k → ℚ) (i : Fin k) : ℚ := cnt i * pixel

/-- force-map-accuracy.r:226-238: `confusion_adjusted`; the rows have samples. -/
def adjusted (n : Fin k → Fin k → ℚ) (cnt : Fin k → ℚ) (i j : Fin k) : ℚ := n i j / rowSum n i * weight cnt i

/-- force-map-accuracy.r:243-244: `area_adjusted`. -/
def areaAdjusted (pixel : ℚ) (n : Fin k → Fin k → ℚ) (cnt : Fin k → ℚ) (j : Fin k) : ℚ := colSum (adjusted n cnt) j * ∑ i, area pixel cnt i

/-- force-map-accuracy.r:248-255: `proportions`. -/
def proportion (n : Fin k → Fin k → ℚ) (i j : Fin k) : ℚ := n i j / rowSum n i

/-- force-map-accuracy.r:259-276: `confidence_area_adjusted`. -/
noncomputable def areaInterval (pixel : ℚ) (n : Fin k → Fin k → ℚ) (cnt : Fin k → ℚ) (j : Fin k) : ℝ :=
  Real.sqrt ((∑ i, proportion n i j * (1 - proportion n i j) / (rowSum n i - 1) * weight cnt i ^ 2 : ℚ) : ℝ) *
    ((∑ i, area pixel cnt i : ℚ) : ℝ) * (196 / 100)

/-- force-map-accuracy.r:284-286: `oa_se`; `u` are the user's accuracies. -/
noncomputable def oaInterval (n : Fin k → Fin k → ℚ) (cnt u : Fin k → ℚ) : ℝ :=
  Real.sqrt ((∑ i, weight cnt i ^ 2 * u i * (1 - u i) / (rowSum n i - 1) : ℚ) : ℝ) * (196 / 100)

/-- force-map-accuracy.r:289-291: `ua_se`. -/
noncomputable def uaInterval (n : Fin k → Fin k → ℚ) (u : Fin k → ℚ) (i : Fin k) : ℝ :=
  Real.sqrt ((u i * (1 - u i) / (rowSum n i - 1) : ℚ) : ℝ) * (196 / 100)

/-- force-map-accuracy.r:297-312: `Nj`. -/
def estimated (n : Fin k → Fin k → ℚ) (cnt : Fin k → ℚ) (j : Fin k) : ℚ := ∑ i, cnt i / rowSum n i * n i j

/-- force-map-accuracy.r:315-319: `term1`. -/
def term1 (n : Fin k → Fin k → ℚ) (cnt p u : Fin k → ℚ) (j : Fin k) : Option ℚ :=
  quot (cnt j ^ 2 * (1 - p j) ^ 2 * u j * (1 - u j)) (colSum n j - 1)

/-- force-map-accuracy.r:321-359: `term2`. -/
def term2 (n : Fin k → Fin k → ℚ) (cnt p : Fin k → ℚ) (j : Fin k) : ℚ :=
  (∑ i, cnt i ^ 2 * n i j / rowSum n i * (1 - n i j / rowSum n i) / (rowSum n i - 1) * (if i = j then 0 else 1)) * p j ^ 2

/-- force-map-accuracy.r:363-368: `pa_se`, without the root and the factor 1.96; `none` where a division fails. -/
def paVariance (n : Fin k → Fin k → ℚ) (cnt p u : Fin k → ℚ) (j : Fin k) : Option ℚ :=
  (term1 n cnt p u j).map fun t => 1 / estimated n cnt j ^ 2 * (t + term2 n cnt p j)

end matrix

/-! ## force-sample-size -/

/-- A row of the joined table: pixel count and expected user's accuracy. -/
structure Row where
  count : ℚ
  acc : ℝ

/-- force-sample-size.r:133: proportional area. -/
def share (t : List Row) (r : Row) : ℚ := r.count / (t.map (·.count)).sum

/-- force-sample-size.r:134: standard deviation. -/
noncomputable def stdev (r : Row) : ℝ := Real.sqrt (r.acc * (1 - r.acc))

/-- force-sample-size.r:138-139: the number of samples; `as.integer` cuts the fraction (numbers above 2^31 are not modelled). -/
noncomputable def number (t : List Row) (err : ℝ) : Nat := ⌊((t.map fun r => (share t r : ℝ) * stdev r).sum / err) ^ 2⌋₊

/-- R `round`: to the nearest integer, ties to even. -/
def roundR (x : ℚ) : Int :=
  let f := ⌊x⌋
  if x - f < 1 / 2 then f else if 1 / 2 < x - f then f + 1 else if f % 2 = 0 then f else f + 1

/-- force-sample-size.r:147: proportional allocation. -/
def proportional (t : List Row) (n : Nat) (r : Row) : Int := roundR (n * share t r)

/-- The recommended allocation, for the rows in the order of the output. -/
inductive Advice where
  /-- force-sample-size.r:182-184 -/
  | proportional (l : List Int)
  /-- force-sample-size.r:153-172: numbers of samples of the rare classes, and of the big classes -/
  | compromise (rare : List ℚ) (big : List ℚ)
  /-- force-sample-size.r:175-178 -/
  | failed

/-- force-sample-size.r:151-184. -/
def advise (t : List Row) (n : Nat) (minSize : Nat) : Advice :=
  if t.any fun r => proportional t n r < minSize then
    let rare := t.filter fun r => proportional t n r < minSize
    let nRare : ℚ := (rare.map fun _ => (minSize : ℚ)).sum
    let big := (t.filter fun r => minSize ≤ proportional t n r).map fun r => ((n : ℚ) - nRare) * share t r
    if big.any fun c => c < minSize then .failed else .compromise (rare.map fun _ => (minSize : ℚ)) big
  else .proportional (t.map (proportional t n))

end Verif.Assess
