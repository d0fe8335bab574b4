import Mathlib.Algebra.Field.Basic
import Mathlib.Analysis.Real.Sqrt
import Mathlib.Data.List.Sort
import Verif.Str.Model

/-!
# Model of src/modules/cross-level/stats-cl.c

Floating-point numbers are elements of a field: all arithmetic is exact. Rounding, overflow, NaN and
infinity are not modelled; a division by zero is left to the field (every theorem excludes it).
-/

namespace Verif.Stats

open Verif.Str (Out)

variable {K : Type} [Field K]

/-- stats-cl.c:198-207 `var_recurrence`: new mean and sum of squares for sample number `n`. -/
def varRec (x mx vx n : K) : K × K :=
  let mx' := mx + (x - mx) / n
  let vx' := vx + (x - mx) * (x - mx')
  (mx', vx')

/-- stats-cl.c:99-110 `cov_recurrence`. -/
def covRec (x y mx my cv n : K) : K × K × K :=
  let mx' := mx + (x - mx) / n
  let my' := my + (y - my) / n
  let cv' := cv + (n - 1) / n * (x - mx) * (y - my)
  (mx', my', cv')

/-- The five estimates of `covar_recurrence`. -/
structure Co (K : Type) where
  mx : K
  my : K
  vx : K
  vy : K
  cv : K

/-- stats-cl.c:64-79 `covar_recurrence`. -/
def covarRec (x y : K) (c : Co K) (n : K) : Co K :=
  let mx' := c.mx + (x - c.mx) / n
  let my' := c.my + (y - c.my) / n
  { mx := mx'
    my := my'
    vx := c.vx + (x - c.mx) * (x - mx')
    vy := c.vy + (y - c.my) * (y - my')
    cv := c.cv + (n - 1) / n * (x - c.mx) * (y - c.my) }

/-- stats-cl.c:166-180 `skew_recurrence`: mean, second and third moment. -/
def skewRec (x mx vx sx n : K) : K × K × K :=
  let delta := x - mx
  let deltaN := delta / n
  let tmp := delta * deltaN * (n - 1)
  let mx' := mx + deltaN
  let sx' := sx + tmp * deltaN * (n - 2) - 3 * deltaN * vx
  let vx' := vx + tmp
  (mx', vx', sx')

/-- stats-cl.c:131-147 `kurt_recurrence`: mean, second, third and fourth moment. The statements are
in the order of the code: the fourth moment uses the old second and third, the third the old
second. -/
def kurtRec (x mx vx sx kx n : K) : K × K × K × K :=
  let delta := x - mx
  let deltaN := delta / n
  let deltaN2 := deltaN * deltaN
  let tmp := delta * deltaN * (n - 1)
  let mx' := mx + deltaN
  let kx' := kx + tmp * deltaN2 * (n * n - 3 * n + 3) + 6 * deltaN2 * vx - 4 * deltaN * sx
  let sx' := sx + tmp * deltaN * (n - 2) - 3 * deltaN * vx
  let vx' := vx + tmp
  (mx', vx', sx', kx')

/-- stats-cl.c:260-263 `variance`. -/
def variance (var n : K) : K := var / (n - 1)

/-- stats-cl.c:278-281 `standdev`. -/
noncomputable def standdev (var n : ℝ) : ℝ := Real.sqrt (variance var n)

/-- stats-cl.c:296-299 `covariance`. -/
def covariance (cov n : K) : K := cov / (n - 1)

/-- stats-cl.c:223-226 `kurtosis`. -/
def kurtosis (var kurt n : K) : K := kurt / (n * variance var (n + 1) * variance var (n + 1))

/-- stats-cl.c:242-245 `skewness`. -/
noncomputable def skewness (var skew n : ℝ) : ℝ := skew / (n * standdev var (n + 1) ^ 3)

/-- stats-cl.c:309-314 `linreg_slope`. -/
def linregSlope (cov varx : K) : K := cov / varx

/-- stats-cl.c:325-330 `linreg_intercept`. -/
def linregIntercept (slope mx my : K) : K := my - slope * mx

/-- stats-cl.c:343-350 `linreg_coefs`: slope and intercept. -/
def linregCoefs (mx my cov varx : K) : K × K :=
  let slope := linregSlope cov varx
  (slope, linregIntercept slope mx my)

/-- stats-cl.c:377-382 `linreg_rsquared`. -/
def linregRsquared (cov varx vary : K) : K := cov * cov / (varx * vary)

/-- stats-cl.c:393-398 `linreg_predict`. -/
def linregPredict (x slope intercept : K) : K := intercept + slope * x

/-! ## The loops in which the recurrences are used -/

/-- The loop around `var_recurrence` as in table-cl.c:192-202, standardize-hl.c:62-71,
bap-hl.c:421-430: `k++; if (k == 1) mx = x; else var_recurrence(x, &mx, &vx, k)`.
State: `k`, mean, sum of squares. -/
def varLoop : List K → Nat × K × K → Nat × K × K
  | [], s => s
  | x :: xs, (k, mx, vx) =>
    let k := k + 1
    varLoop xs (if k = 1 then (k, x, vx) else
      let r := varRec x mx vx k
      (k, r.1, r.2))

/-- As `varLoop`, for `cov_recurrence`. -/
def covLoop : List (K × K) → Nat × K × K × K → Nat × K × K × K
  | [], s => s
  | (x, y) :: xs, (k, mx, my, cv) =>
    let k := k + 1
    covLoop xs (if k = 1 then (k, x, y, cv) else (k, covRec x y mx my cv k))

/-- The loop around `covar_recurrence` as in trend-hl.c:76-109, bap-hl.c:241-253. -/
def covarLoop : List (K × K) → Nat × Co K → Nat × Co K
  | [], s => s
  | (x, y) :: xs, (k, c) =>
    let k := k + 1
    covarLoop xs (if k = 1 then (k, { c with mx := x, my := y }) else (k, covarRec x y c k))

/-- As `varLoop`, for `skew_recurrence`. -/
def skewLoop : List K → Nat × K × K × K → Nat × K × K × K
  | [], s => s
  | x :: xs, (k, mx, vx, sx) =>
    let k := k + 1
    skewLoop xs (if k = 1 then (k, x, vx, sx) else (k, skewRec x mx vx sx k))

/-- The loop around `kurt_recurrence` (stats-cl.c:131-147), started at the first value. stm-hl.c:80-97 and
fold-hl.c:87-129 call it from the first value on with all moments zero, which is the same
(`Fold.accAll_moments`). -/
def kurtLoop : List K → Nat × K × K × K × K → Nat × K × K × K × K
  | [], s => s
  | x :: xs, (k, mx, vx, sx, kx) =>
    let k := k + 1
    kurtLoop xs (if k = 1 then (k, x, vx, sx, kx) else (k, kurtRec x mx vx sx kx k))

/-! ## Mode, unique values, histogram -/

/-- stats-cl.c:797-799 `comp`: `none` if the subtraction overflows (undefined behaviour). -/
def comp (a b : Int) : Option Int :=
  if a - b < -2147483648 ∨ a - b > 2147483647 then none else some (a - b)

/-- `qsort(x, n, sizeof(int), comp)` of the C library. The result of sorting integers does not depend
on the algorithm; which pairs are compared does, so an overflow in any pair is undefined. -/
def qsortInt (l : List Int) : Out (List Int) :=
  if l.any fun a => l.any fun b => (comp a b).isNone then .ub
  else .ok (l.insertionSort (· ≤ ·))

/-- stats-cl.c:697-707: the loop of `mode`; `prev` is `x[i-1]`. Result: `prev`, `now`, `max`, `mod`. -/
def modeLoop : List Int → Int → Nat → Nat → Int → Int × Nat × Nat × Int
  | [], prev, now, max, mod => (prev, now, max, mod)
  | x :: xs, prev, now, max, mod =>
    if x = prev then modeLoop xs x (now + 1) max mod
    else if now > max then modeLoop xs x 1 now prev
    else modeLoop xs x 1 max mod

/-- stats-cl.c:688-716 `mode`. An empty sample reads `x[0]`: undefined. -/
def mode (x : List Int) : Out Int :=
  match x with
  | [] => .ub
  | x0 :: _ =>
    (qsortInt x).bind fun arr =>
      match arr with
      | [] => .ub
      | a :: as =>
        let (prev, now, max, mod) := modeLoop as a 1 1 x0
        if now > max then .ok prev else .ok mod

/-- stats-cl.c:736-738, 766-767: number of changes. -/
def uniqLoop : List Int → Int → Nat → Nat
  | [], _, num => num
  | x :: xs, prev, num => uniqLoop xs x (if x ≠ prev then num + 1 else num)

/-- stats-cl.c:725-744 `n_uniq` (non-empty arrays; `alloc` of zero bytes is not modelled). -/
def nUniq (x : List Int) : Out Nat :=
  (qsortInt x).bind fun arr =>
    match arr with
    | [] => .ok 1
    | a :: as => .ok (uniqLoop as a 1)

/-- `hist[0][k] = v`, undefined outside of the array. -/
def setAt (h : List Int) (k : Nat) (v : Int) : Out (List Int) :=
  if k < h.length then .ok (h.set k v) else .ub

/-- `hist[1][k]++`, undefined outside of the array. -/
def incAt (h : List Nat) (k : Nat) : Out (List Nat) :=
  if k < h.length then .ok (h.modify k (· + 1)) else .ub

/-- stats-cl.c:776-784: the second loop of `histogram`. -/
def histLoop : List Int → Int → Nat → List Int → List Nat → Out (List Int × List Nat)
  | [], _, _, h0, h1 => .ok (h0, h1)
  | x :: xs, prev, k, h0, h1 =>
    if x ≠ prev then
      (setAt h0 (k + 1) x).bind fun h0 =>
        (incAt h1 (k + 1)).bind fun h1 => histLoop xs x (k + 1) h0 h1
    else (incAt h1 k).bind fun h1 => histLoop xs x k h0 h1

/-- stats-cl.c:753-791 `histogram`: the values, their counts and `n_uniq`. -/
def histogram (x : List Int) : Out ((List Int × List Nat) × Nat) :=
  (qsortInt x).bind fun arr =>
    match arr with
    | [] => .ub
    | a :: as =>
      let num := uniqLoop as a 1
      (setAt (List.replicate num 0) 0 a).bind fun h0 =>
        (incAt (List.replicate num 0) 0).bind fun h1 =>
          (histLoop as a 0 h0 h1).bind fun h => .ok (h, num)

end Verif.Stats
