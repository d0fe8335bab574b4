import Mathlib.Analysis.SpecialFunctions.Exp
import Mathlib.Data.Rat.Floor

/-!
# Model of the Sentinel-2 resolution merge (resmerge-ll.c)

Reflectances are integers (`short`, in 1/10000), computations are exact real arithmetic unless a
rounding is given. One of the six bands is modelled; the others are treated alike, and the 10 m
bands are not changed. GSL's linear regression is the parameter `ls`.
-/

namespace Verif.Merge

/-- `(short)` of a number, in range. -/
noncomputable def truncR (x : ℝ) : ℤ := if 0 ≤ x then ⌊x⌋ else ⌈x⌉

/-- `(short)` of a rational number, in range. -/
def truncQ (x : ℚ) : ℤ := if 0 ≤ x then ⌊x⌋ else ⌈x⌉

/-- The image: columns and rows, 10 m bands green, red and broad NIR, quality. -/
structure Img where
  nx : Nat
  ny : Nat
  green : Nat → ℤ
  red : Nat → ℤ
  bnir : Nat → ℤ
  off : Nat → Bool
  /-- cloud (> 0) or shadow -/
  cloudy : Nat → Bool

/-- The pixels within `r` rows and columns, row by row (e.g. resmerge-ll.c:177-182). -/
def square (m : Img) (r i j : Nat) : List Nat :=
  (List.range (2 * r + 1)).flatMap fun ii => (List.range (2 * r + 1)).filterMap fun jj =>
    if i + ii < r ∨ m.ny ≤ i + ii - r ∨ j + jj < r ∨ m.nx ≤ j + jj - r then none
    else some ((i + ii - r) * m.nx + (j + jj - r))

/-- resmerge-ll.c:167, 306, 598, 624: pixels that are not changed. -/
def skip (m : Img) (p : Nat) : Bool := m.off p || m.cloudy p

/-! ## Regression -/

/-- A row of the regression: three predictors and the observation; the first predictor is 1
(resmerge-ll.c:138). -/
structure Row where
  g : ℝ
  r : ℝ
  n : ℝ
  y : ℝ

/-- Four regression coefficients. -/
abbrev Coef := ℝ × ℝ × ℝ × ℝ

/-- `gsl_multifit_linear_est` (resmerge-ll.c:210). -/
def est (c : Coef) (g r n : ℝ) : ℝ := c.1 + c.2.1 * g + c.2.2.1 * r + c.2.2.2 * n

/-- resmerge-ll.c:176-195: the pixels of the 5 x 5 window that are not off. -/
def window (m : Img) (i j : Nat) : List Nat := (square m 2 i j).filter fun np => !m.off np

/-- resmerge-ll.c:186-190: the row of a pixel. -/
noncomputable def row (m : Img) (y : Nat → ℤ) (np : Nat) : Row :=
  ⟨m.green np / 10000, m.red np / 10000, m.bnir np / 10000, y np / 10000⟩

/-- resmerge-ll.c:176-204: all 25 rows; missing pixels are zeros. -/
noncomputable def rows (m : Img) (y : Nat → ℤ) (i j : Nat) : List Row :=
  (window m i j).map (row m y) ++ List.replicate (25 - (window m i j).length) ⟨0, 0, 0, 0⟩

/-- resmerge-ll.c:169-211: the new value of a pixel. -/
noncomputable def predict (ls : List Row → Coef) (m : Img) (y : Nat → ℤ) (i j : Nat) : ℤ :=
  let p := i * m.nx + j
  truncR (est (ls (rows m y i j)) (m.green p / 10000) (m.red p / 10000) (m.bnir p / 10000) * 10000)

/-- resmerge-ll.c:165-213: one pixel; the band itself is updated. -/
noncomputable def mergePixel (ls : List Row → Coef) (m : Img) (y : Nat → ℤ) (c : Nat × Nat) : Nat → ℤ :=
  let p := c.1 * m.nx + c.2
  if skip m p then y else fun k => if k = p then predict ls m y c.1 c.2 else y k

/-- The pixels in the order in which the threads treat them (resmerge-ll.c:161, schedule
guided). -/
noncomputable def regression (ls : List Row → Coef) (m : Img) (y : Nat → ℤ) (order : List (Nat × Nat)) : Nat → ℤ :=
  order.foldl (mergePixel ls m) y

/-! ## ImproPhe -/

/-- resmerge-ll.c:573 `Sthr`. -/
noncomputable def thresholds : List ℝ := [0.0025, 0.005, 0.01, 0.02, 0.025]

/-- resmerge-ll.c:612-624: the valid pixels of the circular kernel of radius 2. The kernel
distance is that of the pixels (imagefuns-cl.c distance_kernel). -/
def circle (m : Img) (i j : Nat) : List Nat :=
  (List.range 5).flatMap fun ii => (List.range 5).filterMap fun jj =>
    if i + ii < 2 ∨ m.ny ≤ i + ii - 2 ∨ j + jj < 2 ∨ m.nx ≤ j + jj - 2 then none
    else if 4 < ((ii : ℤ) - 2) ^ 2 + ((jj : ℤ) - 2) ^ 2 then none
    else if skip m ((i + ii - 2) * m.nx + (j + jj - 2)) then none
    else some ((i + ii - 2) * m.nx + (j + jj - 2))

/-- resmerge-ll.c:626-628: spectral distance. -/
noncomputable def similarity (m : Img) (p np : Nat) : ℝ :=
  (|((m.green p - m.green np : ℤ) : ℝ) / 10000| + |((m.red p - m.red np : ℤ) : ℝ) / 10000|
    + |((m.bnir p - m.bnir np : ℤ) : ℝ) / 10000|) / 3

/-- resmerge-ll.c:630-634: index of the first threshold above the distance. -/
noncomputable def sclass (s : ℝ) : Option Nat := thresholds.findIdx? fun t => decide (s < t)

/-- A neighbour: distance, class, value of the band. -/
structure Neighbour where
  s : ℝ
  c : Nat
  v : ℤ

/-- resmerge-ll.c:611-653: the neighbours. -/
noncomputable def neighbours (m : Img) (y : Nat → ℤ) (i j : Nat) : List Neighbour :=
  (circle m i j).filterMap fun np =>
    (sclass (similarity m (i * m.nx + j) np)).map fun c => ⟨similarity m (i * m.nx + j) np, c, y np⟩

/-- resmerge-ll.c:661-665: the smallest class that has at least `mink` = 3 neighbours. -/
def cutoff (l : List Neighbour) : Nat :=
  ((List.range 5).find? fun s => decide (3 ≤ l.countP fun n => decide (n.c ≤ s))).getD 4

/-- resmerge-ll.c:638-644: smallest and largest positive distance up to a class. -/
noncomputable def srange (l : List Neighbour) (sc : Nat) : ℝ × ℝ :=
  (l.filter fun n => decide (0 < n.s ∧ n.c ≤ sc)).foldl
    (fun r n => (if n.s < r.1 then n.s else r.1, if n.s > r.2 then n.s else r.2)) (2147483647, -2147483648)

/-- resmerge-ll.c:517-530 `rescale_weight_resmerge`. -/
noncomputable def rescale (w lo hi : ℝ) : ℝ :=
  if w = 0 then 1 else if lo = hi then 1 else 1 + Real.exp (25 * ((w - lo) / (hi - lo)) - 7.5)

/-- resmerge-ll.c:655-682: the prediction. -/
noncomputable def improphe (m : Img) (y : Nat → ℤ) (i j : Nat) : ℤ :=
  let l := neighbours m y i j
  if l = [] then y (i * m.nx + j)
  else
    let sc := cutoff l
    let u := l.filter fun n => decide (n.c ≤ sc)
    let w := fun n : Neighbour => 1 / rescale n.s (srange l sc).1 (srange l sc).2
    truncR ((u.map fun n => w n * (n.v / 10000)).sum / (u.map w).sum * 10000)

/-- resmerge-ll.c:305-308: pixels that are off or cloudy keep their value. -/
noncomputable def improphePixel (m : Img) (y : Nat → ℤ) (i j : Nat) : ℤ :=
  if skip m (i * m.nx + j) then y (i * m.nx + j) else improphe m y i j

/-- resmerge-ll.c:669-679 in `double` arithmetic: a neighbour that does not differ from the pixel
in the 10 m bands, so that its weight is 1/1, is added to the sums; `rn` rounds. -/
def accum (rn : ℚ → ℚ) (a : ℚ × ℚ) (v : ℤ) : ℚ × ℚ :=
  (rn (a.1 + rn (rn (1 / 1) * rn (v / 10000))), rn (a.2 + rn (1 / 1)))

/-- resmerge-ll.c:669-682 in `double` arithmetic for such neighbours. -/
def impropheRounded (rn : ℚ → ℚ) (vs : List ℤ) : ℤ :=
  truncQ (rn (rn ((vs.foldl (accum rn) (0, 0)).1 / (vs.foldl (accum rn) (0, 0)).2) * 10000))

/-! ## STARFM -/

/-- resmerge-ll.c:434-448: the pixels of a block of 2 x 2 pixels that are not off. -/
def block (m : Img) (i j : Nat) : List Nat :=
  ([(0, 0), (0, 1), (1, 0), (1, 1)] : List (Nat × Nat)).filterMap fun c =>
    if m.ny ≤ i + c.1 ∨ m.nx ≤ j + c.2 then none
    else if m.off ((i + c.1) * m.nx + (j + c.2)) then none
    else some ((i + c.1) * m.nx + (j + c.2))

/-- resmerge-ll.c:427-428: the blocks, in order. -/
def blocks (m : Img) : List (Nat × Nat) :=
  (List.range ((m.ny + 1) / 2)).flatMap fun i => (List.range ((m.nx + 1) / 2)).map fun j => (2 * i, 2 * j)

/-- resmerge-ll.c:427-470: one block; `p` counts the blocks, but is used as the index of a pixel
in the quality information (resmerge-ll.c:430). -/
noncomputable def reduceBlock (m : Img) (a : Nat → ℝ) (b : Nat × (Nat × Nat)) : Nat → ℝ :=
  if m.off b.1 then a
  else
    let l := block m b.2.1 b.2.2
    if l = [] then a else fun k => if k ∈ l then (l.map a).sum / l.length else a k

/-- resmerge-ll.c:427-470: reduced resolution, from the image convolved with a Gaussian kernel
(resmerge-ll.c:384-416, not modelled). -/
noncomputable def reduce (m : Img) (a : Nat → ℝ) : Nat → ℝ :=
  ((List.range (blocks m).length).zip (blocks m)).foldl (reduceBlock m) a

/-- Reduced and original data of one of the two 10 m images, and the allowed difference
(resmerge-ll.c:777-778 `slice_value`). -/
structure Pair where
  coarse : Nat → ℝ
  fine : Nat → ℝ
  slice : ℝ

/-- A candidate: row and column distance, differences and predicted value. -/
structure Cand where
  d2 : ℝ
  rc : ℝ
  rf : ℝ
  v : ℝ

/-- resmerge-ll.c:747-749: uncertainty of a difference. -/
noncomputable def unc : ℝ := Real.sqrt (0.002 * 0.002 + 0.002 * 0.002)

/-- resmerge-ll.c:750 `unc_all`. -/
noncomputable def uncAll : ℝ := Real.sqrt (unc * unc + unc * unc)

/-- resmerge-ll.c:813-829: smallest of `SHRT_MAX` and the absolute differences of the pixel. -/
noncomputable def least (l : List ℝ) : ℝ := l.foldl (fun a x => if |x| < a then |x| else a) 32767

/-- resmerge-ll.c:839-867: the candidates for a pixel; `y` is the 20 m band. -/
noncomputable def candidates (m : Img) (prs : List Pair) (y : Nat → ℝ) (i j : Nat) : List Cand :=
  let p := i * m.nx + j
  let minc := least (prs.map fun q => q.coarse p - y p)
  let minf := least (prs.map fun q => q.coarse p - q.fine p)
  ((square m 1 i j).filter fun np => !m.off np).flatMap fun np => prs.filterMap fun q =>
    if |q.fine np - q.fine p| > q.slice then none
    else if |q.coarse np - y np| < minc + unc ∨ |q.coarse np - q.fine np| < minf + unc then
      some ⟨(((np / m.nx : Nat) : ℝ) - i) ^ 2 + (((np % m.nx : Nat) : ℝ) - j) ^ 2, q.coarse np - y np,
        q.coarse np - q.fine np, q.fine np - (q.coarse np - y np)⟩
    else none

/-- resmerge-ll.c:884-901: the weight of a candidate. -/
noncomputable def weight (c : Cand) : ℝ :=
  let ts := (|c.rc| + 0.0001) * (|c.rf| + 0.0001)
  if ts < uncAll then 1 else 1 / (ts * (1 + Real.sqrt c.d2 / 1))

/-- resmerge-ll.c:877-927: the prediction. -/
noncomputable def starfm (m : Img) (prs : List Pair) (y : Nat → ℝ) (i j : Nat) : ℝ :=
  let l := candidates m prs y i j
  if l = [] then y (i * m.nx + j)
  else (l.map fun c => weight c / (l.map weight).sum * c.v).sum

/-- resmerge-ll.c:480-492, 798: the new value of a pixel; the prediction is allocated with zeros
and pixels that are off are skipped. -/
noncomputable def starfmPixel (m : Img) (prs : List Pair) (y : Nat → ℤ) (i j : Nat) : ℤ :=
  if m.off (i * m.nx + j) then truncR (0 * 10000)
  else truncR (starfm m prs (fun k => (y k : ℝ) / 10000) i j * 10000)

end Verif.Merge
