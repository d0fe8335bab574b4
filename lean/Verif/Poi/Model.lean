import Mathlib.Algebra.Order.Field.Basic
import Mathlib.Analysis.SpecialFunctions.Exp
import Mathlib.Analysis.Real.Sqrt

/-!
# Model of the detection of points of interest

`points_of_interest` of `src/modules/lower-level/coreg-ll.c` and the functions of `coregfuns-ll.c` it calls. Arithmetic is
exact, in any ordered field (`float` in the code). Reading outside of an array gives `none`.
-/

namespace Verif.Poi

variable {K : Type} [Field K] [LinearOrder K] [IsStrictOrderedRing K]

/-- A loop from `a` up to, not including, `b`. -/
def span (a b : Int) : List Int := (List.range (b - a).toNat).map fun (n : Nat) => a + n

/-- Two nested loops. -/
def cells (k1 k2 l1 l2 : Int) : List (Int × Int) := (span k1 k2).flatMap fun k => (span l1 l2).map fun l => (k, l)

/-- An element of an array. -/
def get {α : Type} (px : List α) (n : Int) : Option α := if 0 ≤ n then px[n.toNat]? else none

/-! ## Filtering -/

/-- coregfuns-ll.c:1159-1164 (and 1133-1136 with the whole filter): the sum of the weighted pixels, and of the weights. -/
def window (px : List K) (W : Int) (f : Int → K) (w h i j k1 k2 l1 l2 : Int) : Option (K × K) :=
  (cells k1 k2 l1 l2).foldlM (fun s c => (get px ((i + c.1 - h) * W + (j + c.2 - h))).map fun v =>
    (s.1 + v * f (c.1 * w + c.2), s.2 + f (c.1 * w + c.2))) (0, 0)

/-- coregfuns-ll.c:1154-1169, and the same in the other three passes: a pixel at a border; `some none`: `continue`. -/
def border (px : List K) (W H : Int) (f : Int → K) (w h i j : Int) : Option (Option K) :=
  (window px W f w h i j (if h - i > 0 then h - i else 0) (if H - i < w then H - i else w)
    (if h - j > 0 then h - j else 0) (if W - j < w then W - j else w)).map fun s =>
      if |s.2| < 1 / 10000000000 then none else some (s.1 / s.2)

/-- coregfuns-ll.c:1130-1141: the first pass, shifted by `h`; other pixels are zero (1123). -/
def inner (px : List K) (W H : Int) (f : Int → K) (w h r c : Int) : Option K :=
  if 0 ≤ r - h ∧ r - h < H - w ∧ 0 ≤ c - h ∧ c - h < W - w then
    (window px W f w h r c 0 w 0 w).map (·.1)
  else some 0

/-- coregfuns-ll.c:1115-1272 `Conv2same_FLT_T`: a pixel after the five passes. -/
def pixel (px : List K) (W H : Int) (f : Int → K) (w h r c : Int) : Option K :=
  (inner px W H f w h r c).bind fun v =>
    [decide (r < h), decide (H - h ≤ r), decide (c < h), decide (W - h ≤ c)].foldlM
      (fun v pass => if pass then (border px W H f w h r c).map fun o => o.getD v else some v) v

/-- coregfuns-ll.c:1115-1272 `Conv2same_FLT_T`. The passes at 1183 and 1245 start outside of the image if it is
smaller than half of the filter. -/
def conv (px : List K) (W H : Int) (f : Int → K) (w : Int) : Option (List K) :=
  let h := (w - 1) / 2
  if H < h ∨ W < h then none
  else (cells 0 H 0 W).mapM fun c => pixel px W H f w h c.1 c.2

/-- coregfuns-ll.c:795-805 `CalcGradient2D`: one of the two images; `d` is the step to the neighbour, `old` what was in the
image before. -/
def gradient (px old : List K) (W H d : Int) : Option (List K) :=
  (cells 0 H 0 W).mapM fun c =>
    if 1 ≤ c.1 ∧ c.1 < H - 1 ∧ 1 ≤ c.2 ∧ c.2 < W - 1 then
      (get px (c.1 * W + c.2 + d)).bind fun a => (get px (c.1 * W + c.2 - d)).map fun b => (a - b) / 2
    else get old (c.1 * W + c.2)

/-- coregfuns-ll.c:808-812, 822-833 `CalcMultiply`, `CalcAdd`, `CalcSubtract`: an operation on each pixel. -/
def pointwise (op : K → K → K) (a b : List K) : List K := List.zipWith op a b

/-- coregfuns-ll.c:815-819 `CalcDivide`: `none` for a division by zero. -/
def divide (a b : List K) : Option (List K) := (a.zip b).mapM fun v => if v.2 = 0 then none else some (v.1 / v.2)

/-- coregfuns-ll.c:836-864 `CalcMinMaxMeanWithMask`: the mean. -/
def maskedMean (px : List K) (mask : List Bool) : K :=
  let s := (px.zip mask).foldl (fun (s : K × Nat) v =>
    if |v.1| < 1 / 100000000000 then s else if v.2 = false then s else (s.1 + v.1, s.2 + 1)) (0, 0)
  if s.2 > 0 then s.1 / s.2 else 0

/-! ## Mask and image -/

/-- coreg-ll.c:466-471, in `mask_and_base`. -/
def mask (target base : List Int) : List Bool := (target.zip base).map fun v => decide (v.1 > 0 ∧ v.2 > 0)

/-- coregfuns-ll.c:1294-1324 `GetStd`: the square of the result; -1 without data (its square is not used then). -/
def variance (px : List Int) (mask : List Bool) : K :=
  let vs : List K := ((px.zip mask).filter (·.2)).map fun v => (v.1 : K)
  if vs.length = 0 then -1
  else
    let mean := vs.sum / vs.length
    (vs.map fun v => (v - mean) * (v - mean)).sum / vs.length

/-- coregfuns-ll.c:1327-1336 `ApplyMask`. -/
def applyMask (px : List Int) (mask : List Bool) (nodata : Int) : List Int :=
  (px.zip mask).map fun v => if v.2 = false then nodata else v.1

/-- coreg-ll.c:473-478, 528-535: the image in which points are searched; `none`: no pixel has data in both images. -/
def image (K : Type) [Field K] [LinearOrder K] (target base : List Int) (nodata : Int) : Option (List Int) :=
  let m := mask target base
  if m.countP (· = true) = 0 then none
  else some (applyMask (if (variance target m : K) ≤ variance base m then target else base) m nodata)

/-- coreg-ll.c:544-548: scaled to 255; `none` for a division by zero. -/
def scaled (img : List Int) : Option (List K) :=
  let top : K := img.foldl (fun (m : K) (v : Int) => if (v : K) > m then (v : K) else m) 0
  if top = 0 ∧ ∃ v ∈ img, 0 ≤ v then none
  else some (img.map fun v => if v < 0 then 0 else (v : K) / top * 255)

/-! ## Detection -/

/-- coregfuns-ll.c:1275-1291 `FindTargetValueInWindow`, over the pixels of the window. -/
def findValue (px : List Int) (W H target : Int) : List (Int × Int) → Option Bool
  | [] => some false
  | c :: cs =>
    if c.1 < 0 ∨ c.1 ≥ H ∨ c.2 < 0 ∨ c.2 ≥ W then findValue px W H target cs
    else (get px (c.1 * W + c.2)).bind fun v => if v = target then some true else findValue px W H target cs

/-- coreg-ll.c:591-594, the same at 608-611 and 625-628: a point. All four gradients are read, the code stops at the first
condition that does not hold. -/
def isPoint (img : List Int) (g0 g1 g2 : List K) (W H nodata : Int) (mean : K) (c : Int × Int) : Option Bool :=
  (findValue img W H nodata (cells (c.1 - 7) (c.1 + 7 + 1) (c.2 - 7) (c.2 + 7 + 1))).bind fun found =>
    if found then some false
    else (get g1 (c.1 * W + c.2)).bind fun a => (get g1 (c.1 * W + c.2 + 1)).bind fun b =>
      (get g2 (c.1 * W + c.2)).bind fun d => (get g2 ((c.1 + 1) * W + c.2)).bind fun e =>
        (get g0 (c.1 * W + c.2)).map fun s => decide (a > 0 ∧ b < 0 ∧ d > 0 ∧ e < 0 ∧ s > mean)

/-- The elements with a property. -/
def select {α : Type} (p : α → Option Bool) : List α → Option (List α)
  | [] => some []
  | a :: l => (p a).bind fun b => (select p l).map fun r => if b then a :: r else r

/-- coreg-ll.c:588-598, 605-615, 622-634: the points above a threshold, in the order of the loops. -/
def scan (img : List Int) (g0 g1 g2 : List K) (W H nodata : Int) (mean : K) : Option (List (Int × Int)) :=
  select (isPoint img g0 g1 g2 W H nodata mean) (cells 7 (H - 7) 7 (W - 7))

/-- coreg-ll.c:586-601: the loop that lowers the threshold; `n` rounds are left. -/
def threshold (count : K → Option Nat) (minimum : Nat) : Nat → K → Option K
  | 0, mean => some mean
  | n + 1, mean => (count mean).bind fun npoi =>
    if npoi < minimum then threshold count minimum n (mean / 2) else some (mean / 2)

/-- coreg-ll.c:586-634: the points; `none` also if more are stored than there is memory for. -/
def detect (img : List Int) (g0 g1 g2 : List K) (W H nodata : Int) (mean : K) (minimum : Nat) :
    Option (List (Int × Int)) :=
  (threshold (fun t => (scan img g0 g1 g2 W H nodata t).map List.length) minimum 10 mean).bind fun t =>
    (scan img g0 g1 g2 W H nodata t).bind fun counted =>
      (scan img g0 g1 g2 W H nodata t).bind fun stored =>
        if stored.length ≤ counted.length then some stored else none

/-- coreg-ll.c:493-654 `points_of_interest`, rows and columns. `f7` and `f2` are the filters of widths `w7` and `w2`. -/
def points (target base : List Int) (W H nodata : Int) (f7 f2 : Int → K) (w7 w2 : Int) (minimum : Nat) :
    Option (List (Int × Int)) :=
  match image K target base nodata with
  | none => some []
  | some img =>
    (scaled img).bind fun img0 =>
    (conv img0 W H f7 w7).bind fun img1 =>
    (gradient img1 (List.replicate (W * H).toNat 0) W H 1).bind fun gx =>
    (gradient img1 (List.replicate (W * H).toNat 0) W H W).bind fun gy =>
    (conv (pointwise (· * ·) gx gy) W H f2 w2).bind fun ab =>
    (conv (pointwise (· * ·) gx gx) W H f2 w2).bind fun a =>
    (conv (pointwise (· * ·) gy gy) W H f2 w2).bind fun b =>
    (divide (pointwise (· - ·) (pointwise (· * ·) a b) (pointwise (· * ·) ab ab))
      ((pointwise (· + ·) a b).map (· + 1 / 100))).bind fun s =>
    (conv s W H f2 w2).bind fun g0 =>
    -- the calls of `memset` at 578-579 only clear one pixel of the border each
    (gradient g0 s W H 1).bind fun g1 =>
    (gradient g0 (pointwise (· - ·) (pointwise (· * ·) a b) (pointwise (· * ·) ab ab)) W H W).bind fun g2 =>
    detect img g0 g1 g2 W H nodata (maskedMean g0 (mask target base)) minimum

/-! ## Gaussian filter -/

/-- coregfuns-ll.c:876-878, in `GetGaussian`: the width. -/
noncomputable def gaussWidth (sigma : ℝ) : Int :=
  let w := ⌊3 * √8 * sigma + 1 / 10000000000⌋
  if w % 2 = 0 then w - 1 else w

/-- coregfuns-ll.c:886-894, in `GetGaussian`: a weight before it is normalized. -/
noncomputable def gaussRaw (sigma : ℝ) (i j : Int) : ℝ := Real.exp (-(1 / 2) / sigma ^ 2 * ((i : ℝ) * i + j * j))

/-- coregfuns-ll.c:874-903 `GetGaussian`: element `n` of the filter of width `w`. -/
noncomputable def gauss (sigma : ℝ) (w : Int) (n : Int) : ℝ :=
  let h := (w - 1) / 2
  gaussRaw sigma (n / w - h) (n % w - h) /
    ((cells (-h) (h + 1) (-h) (h + 1)).map fun c => gaussRaw sigma c.1 c.2).sum

end Verif.Poi
