import Verif.Index.Lemmas

/-!
# Model of tie point matching

Models the search for tie points in `/repo/src/modules/lower-level/coreg-ll.c` with its helpers in
`/repo/src/modules/lower-level/coregfuns-ll.c`: points of interest, initial matching on the
coarsest pyramid layer, depth first matching on the finer layers, and dense matching. Fitting the
transformations to the tie points and resampling are in the module Coreg.

Simplifications: positions, gradients and similarities are rational numbers (float and double in
the code). The image filters, the correlation, and the iterative least squares fit that moves a
position are parameters: nothing is assumed about their results.
-/

namespace Verif.Match

open Verif.Index (truncQ)

/-- An image, with its value in column `j` and row `i`. -/
structure Img where
  nx : Nat
  ny : Nat
  px : Int → Int → Int

/-- Whether a pixel lies in an image of this size. -/
def inside (nx ny : Nat) (j i : Int) : Bool := 0 ≤ j && j < nx && 0 ≤ i && i < ny

/-- Reading a pixel; `none`: outside of the array. -/
def Img.at (im : Img) (j i : Int) : Option Int :=
  if inside im.nx im.ny j i then some (im.px j i) else none

/-- `-w, …, w`. -/
def span (w : Nat) : List Int := (List.range (2 * w + 1)).map (fun (k : Nat) => (k : Int) - w)

/-- The offsets (column, row) of a window, row by row. -/
def window (w : Nat) : List (Int × Int) := (span w).flatMap (fun b => (span w).map (fun a => (a, b)))

/-- coregfuns-ll.c:1275-1291 `FindTargetValueInWindow`: pixels outside of the image are skipped. -/
def findInWindow (im : Img) (x y : Int) (w : Nat) (v : Int) : Bool :=
  (window w).any (fun d => im.at (x + d.1) (y + d.2) = some v)

/-! ## Points of interest -/

/-- coreg-ll.c:466-471, in `mask_and_base`. -/
def mask (target base : Img) (j i : Int) : Bool := target.px j i > 0 && base.px j i > 0

/-- coregfuns-ll.c:1327-1336 `ApplyMask`. -/
def applyMask (im : Img) (m : Int → Int → Bool) (nodata : Int) : Img :=
  { im with px := fun j i => if m j i then im.px j i else nodata }

/-- The results of the filters: gradients in x and y (`img1`, `img2`), strength (`img0`), and the
mean strength. -/
structure Fields where
  gx : Int → Int → ℚ
  gy : Int → Int → ℚ
  strength : Int → Int → ℚ
  mean : ℚ

/-- Reading one of these arrays. -/
def fieldAt (im : Img) (f : Int → Int → ℚ) (j i : Int) : Option ℚ :=
  if inside im.nx im.ny j i then some (f j i) else none

/-- coreg-ll.c:591-594, 608-611, 625-628: the test of a pixel. All values are read here; the code
stops at the first that fails. -/
def isPoint (im : Img) (nodata : Int) (f : Fields) (limit : ℚ) (c : Int × Int) : Option Bool := do
  let a ← fieldAt im f.gx c.1 c.2
  let a' ← fieldAt im f.gx (c.1 + 1) c.2
  let b ← fieldAt im f.gy c.1 c.2
  let b' ← fieldAt im f.gy c.1 (c.2 + 1)
  let s ← fieldAt im f.strength c.1 c.2
  some (!findInWindow im c.1 c.2 7 nodata && (a > 0 && a' < 0 && b > 0 && b' < 0 && s > limit))

/-- coreg-ll.c:589-590, 606-607, 623-624: `for (i=h; i<ny-h; i++) for (j=h; j<nx-h; j++)`, with
`h = 7` (496). -/
def cells (im : Img) : List (Int × Int) :=
  (List.range (im.ny - 14)).flatMap (fun (b : Nat) => (List.range (im.nx - 14)).map (fun (a : Nat) =>
    ((a : Int) + 7, (b : Int) + 7)))

/-- The pixels that pass the test. -/
def select (im : Img) (nodata : Int) (f : Fields) (limit : ℚ) :
    List (Int × Int) → Option (List (Int × Int))
  | [] => some []
  | c :: cs =>
    match isPoint im nodata f limit c, select im nodata f limit cs with
    | some b, some r => some (if b then c :: r else r)
    | _, _ => none

/-- coreg-ll.c:586-601: the limit is halved until there are enough points, at most ten times. The
limit is also halved after the last count. -/
def search (count : ℚ → Option Nat) (enough : Nat) : Nat → ℚ → Option ℚ
  | 0, m => some m
  | k + 1, m =>
    match count m with
    | none => none
    | some n => if n < enough then search count enough k (m / 2) else some (m / 2)

/-- coreg-ll.c:493-654 `points_of_interest`. `smaller`: the standard deviation of the target is
not larger (475-478); `f`: the results of the filters for the masked image (537-583), any numbers
here. The points are counted once more before they are stored (605-615). -/
def pointsOfInterest (target base : Img) (nodata : Int) (smaller : Bool) (f : Fields)
    (enough : Nat) : Option (List (Int × Int)) :=
  let m := mask target base
  let all := (List.range target.ny).flatMap (fun (b : Nat) => (List.range target.nx).map (fun (a : Nat) =>
    ((a : Int), (b : Int))))
  if !all.any (fun c => m c.1 c.2) then some []
  else
    let image := applyMask (if smaller then target else base) m nodata
    match search (fun l => (select image nodata f l (cells image)).map List.length) enough 10 f.mean with
    | none => none
    | some l => select image nodata f l (cells image)

/-! ## Least squares matching -/

/-- `(int)(x + 1e-10)`. -/
def tr (x : ℚ) : Int := truncQ (x + 1 / 10000000000)

/-- coregfuns-ll.c:246-260, in `resampling` with the identity: whether the patch with centre
`(x, y)` and half width `hw` lies in the image. -/
def patchOk (nx ny : Nat) (x y : Int) (hw : Nat) : Bool :=
  (window hw).all (fun d =>
    !(tr ((x + d.1 : Int) : ℚ) < 0 || tr ((x + d.1 : Int) : ℚ) ≥ (nx : Int) - 1 ||
      tr ((y + d.2 : Int) : ℚ) < 0 || tr ((y + d.2 : Int) : ℚ) ≥ (ny : Int) - 1))

/-- A matched position and its similarity. -/
structure Hit where
  x : ℚ
  y : ℚ
  corr : ℚ
  deriving DecidableEq

/-- The iterative fit: window size, position in the target, start position in the base. -/
abbrev Fit := Nat → Int → Int → ℚ → ℚ → Hit

/-- coregfuns-ll.c:54-235 `LSMatching_SAM`: if one of the patches does not lie in the image, the
position is kept and the similarity is negative (86-92, 103-109). The rest (111-229) is `fit`. The
position in the target is an integer, so rounding it (78, 82) has no effect. -/
def lsm (nx ny : Nat) (fit : Fit) (ws : Nat) (x2 y2 : Int) (x1 y1 : ℚ) : Hit :=
  if !patchOk nx ny x2 y2 (ws / 2) then ⟨x1, y1, -1⟩
  else if !patchOk nx ny (tr x1) (tr y1) ((ws + 2) / 2) then ⟨x1, y1, -2⟩
  else fit ws x2 y2 x1 y1

/-- `xdif < 1e-10 && ydif < 1e-10`: the position did not move. -/
def still (x1 y1 : ℚ) (r : Hit) : Bool :=
  |r.x - x1| < 1 / 10000000000 && |r.y - y1| < 1 / 10000000000

/-- coreg-ll.c:757-770, 921-934, 1570-1580: the window is enlarged as long as the position does
not move. The first number bounds the number of enlargements. -/
def grow (nx ny : Nat) (fit : Fit) (inc maxH : Nat) (x2 y2 : Int) (x1 y1 : ℚ) : Nat → Nat → Hit
  | 0, ws => lsm nx ny fit ws x2 y2 x1 y1
  | k + 1, ws =>
    let r := lsm nx ny fit ws x2 y2 x1 y1
    if still x1 y1 r && (ws + inc) / 2 < maxH && r.corr > 0 then
      grow nx ny fit inc maxH x2 y2 x1 y1 k (ws + inc)
    else r

/-- A tie point: position in the target and in the base. -/
structure Tie where
  tx : Int
  ty : Int
  bx : ℚ
  y : ℚ
  deriving DecidableEq

/-! ## Initial matching -/

/-- coregfuns-ll.c:746-747, in `imsub`: whether the window lies in the image. -/
def fits (nx ny : Nat) (x y : Int) (h : Nat) : Bool :=
  !(x < h || x > (nx : Int) - h - 1 || y < h || y > (ny : Int) - h - 1)

/-- coreg-ll.c:735-747: the best of the nine positions. If none correlates positively, the old
`x1`, `y1` are kept. -/
def best (nx ny h : Nat) (cor : Int → Int → ℚ) (x2 y2 : Int) (old : Int × Int) : (Int × Int) × ℚ :=
  (window 1).foldl (fun st d =>
    if fits nx ny (x2 + d.1) (y2 + d.2) h && cor (x2 + d.1) (y2 + d.2) > st.2 then
      ((x2 + d.1, y2 + d.2), cor (x2 + d.1) (y2 + d.2))
    else st) (old, 0)

/-- coreg-ll.c:772-773: the match is rejected. `diff_threshold` is 1.51 (706). -/
def rejects (thr x1 y1 : ℚ) (r : Hit) : Bool :=
  still x1 y1 r || |r.x - x1| > 151 / 100 || |r.y - y1| > 151 / 100 || r.corr < thr

/-- coreg-ll.c:728-781: one point of interest. The first component is `(x1, y1)`, which lives on
from point to point (675). -/
def initStep (nx ny h maxH : Nat) (thr : ℚ) (cor : Int → Int → Int → Int → ℚ) (fit : Fit)
    (old : Int × Int) (p : Int × Int) : (Int × Int) × Option Tie :=
  if !fits nx ny p.1 p.2 h then (old, none)
  else
    let x1 := (best nx ny h (cor p.1 p.2) p.1 p.2 old).1
    let r := grow nx ny fit 4 maxH p.1 p.2 x1.1 x1.2 maxH (2 * h + 1)
    (x1, if rejects thr x1.1 x1.2 r then none else some ⟨p.1, p.2, r.x, r.y⟩)

/-- coreg-ll.c:725-782, the loop over the points. -/
def initLoop (nx ny h maxH : Nat) (thr : ℚ) (cor : Int → Int → Int → Int → ℚ) (fit : Fit) :
    (Int × Int) → List (Int × Int) → List Tie
  | _, [] => []
  | old, p :: ps =>
    let s := initStep nx ny h maxH thr cor fit old p
    s.2.toList ++ initLoop nx ny h maxH thr cor fit s.1 ps

/-- coreg-ll.c:667-800 `initial_matching`, with `h = 10`, `max_h = 20` (161-162). `x1`, `y1` start
with 0 (675). -/
def initialMatching (nx ny : Nat) (thr : ℚ) (cor : Int → Int → Int → Int → ℚ) (fit : Fit)
    (poi : List (Int × Int)) : List Tie :=
  initLoop nx ny 10 20 thr cor fit (0, 0) poi

/-! ## Depth first matching -/

/-- A layer below the top layer: images, scale between the layer above and this one, window sizes,
limit of the dislocation (`diff_threshold`). -/
structure Layer where
  target : Img
  base : Img
  scale : Nat
  h : Nat
  maxH : Nat
  inc : Nat
  limit : ℚ
  fit : Fit

/-- coreg-ll.c:899-947: one tie point on one layer; `cum` is the scale between the top layer and
this one. The outer `none` is a read outside of the images, the inner `none` drops the point. Both
images are read here; the code does not read the base if the target is too dark. -/
def dfStep (L : Layer) (cum : Nat) (sam : ℚ) (t : Tie) : Option (Option Tie) := do
  let x2 := t.tx * cum
  let y2 := t.ty * cum
  let x1 := t.bx * L.scale
  let y1 := t.y * L.scale
  let a ← L.target.at x2 y2
  let b ← L.base.at (tr x1) (tr y1)
  if a ≤ 1000 ∨ b ≤ 1000 then some none
  else
    let r := grow L.target.nx L.target.ny L.fit L.inc L.maxH x2 y2 x1 y1 L.maxH (2 * L.h + 1)
    if still x1 y1 r || (r.x - x1) ^ 2 + (r.y - y1) ^ 2 > L.limit ^ 2 || r.corr < sam then some none
    else some (some { t with bx := r.x, y := r.y })

/-- All tie points on one layer. -/
def dfLayer (L : Layer) (cum : Nat) (sam : ℚ) : List Tie → Option (List Tie)
  | [] => some []
  | t :: ts =>
    match dfStep L cum sam t, dfLayer L cum sam ts with
    | some r, some rs => some (r.toList ++ rs)
    | _, _ => none

/-- coreg-ll.c:872-973, in `depth_first_matching`: the layers from top to bottom, then the positions
in the target are scaled to the full resolution (953-965; `scales[0]` is 1). -/
def dfLayers (sam : ℚ) : List Layer → Nat → List Tie → Option (List Tie)
  | [], cum, ts => some (ts.map (fun t => { t with tx := t.tx * cum, ty := t.ty * cum }))
  | L :: Ls, cum, ts =>
    match dfLayer L (cum * L.scale) sam ts with
    | none => none
    | some ts' => dfLayers sam Ls (cum * L.scale) ts'

/-! ## Dense matching -/

/-- coreg-ll.c:1530-1531: the limit of the dislocation. -/
def denseLimit (rmse : ℚ) : ℚ := min (max (1 / 2) (rmse * 3)) 2

/-- coreg-ll.c:1528-1529, with `MIN_SAM_THRESHOLD` (45). -/
def denseSam (sam : ℚ) : ℚ := if sam - 5 / 1000 < 985 / 1000 then 985 / 1000 else sam - 5 / 1000

/-- coreg-ll.c:1547-1589: the grid point in column `j`, row `i`. `predict`: the transformation found
before (1559-1562). The result is the shift in x and y with its similarity; the outer `none` is a
read outside of the images. `w = 2*20+1` (233, 1523). -/
def denseCell (target base : Img) (nodata : Int) (predict : Int → Int → ℚ × ℚ) (rmse sam : ℚ)
    (maxH : Nat) (fit : Fit) (j i : Int) : Option (Option Hit) := do
  let a ← target.at j i
  let b ← base.at j i
  if a ≤ 1000 ∨ b ≤ 1000 then some none
  else if findInWindow target j i 20 nodata then some none
  else
    let p := predict j i
    let r := grow target.nx target.ny fit 4 maxH j i p.1 p.2 maxH 41
    if !(still p.1 p.2 r || (r.x - p.1) ^ 2 + (r.y - p.2) ^ 2 > denseLimit rmse ^ 2 ||
        r.corr < denseSam sam) then some (some ⟨r.x - j, r.y - i, r.corr⟩)
    else some none

/-- coreg-ll.c:1518-1519 and 1543-1548: the grid points. -/
def denseGrid (nx ny step : Nat) : List (Int × Int) :=
  (List.range (ny / step)).flatMap (fun (b : Nat) => (List.range (nx / step)).map (fun (a : Nat) =>
    (((a * step : Nat) : Int), ((b * step : Nat) : Int))))

/-! ## The iterative fit -/

/-- coregfuns-ll.c:137-205, one iteration of the fit: the equations are singular (181-182), the patch
leaves the image (196-202), or there are new parameters with a new similarity (185-205). -/
inductive Next (S : Type) where
  | singular
  | outside
  | moved (s : S) (cr : Int)

/-- How the fit ends. -/
inductive End (S : Type) where
  | fail
  | found (s : S) (cr : Int)
  deriving DecidableEq

/-- coregfuns-ll.c:135-222: the fit is repeated as long as the similarity increases; else the last
change is undone (213-218). Similarities are floats, that is, multiples of the smallest float;
they are counted in that unit. `none`: not finished within the given number of iterations. -/
def refine {S : Type} (next : S → Next S) : Nat → S → Int → Option (End S)
  | 0, _, _ => none
  | k + 1, s, cr =>
    match next s with
    | .singular => some (.found s cr)
    | .outside => some .fail
    | .moved s' cr' => if cr' > cr then refine next k s' cr' else some (.found s cr)

end Verif.Match
