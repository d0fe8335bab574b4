import Mathlib.Data.Rat.Defs
import Mathlib.Algebra.BigOperators.Group.List.Basic
import Mathlib.Algebra.Order.Field.Rat
import Verif.Index.Model
import Verif.Libc.Model
import Verif.Qai.Model

/-!
Model of the co-registration of an image with a base image:
src/modules/lower-level/coreg-ll.c and src/modules/lower-level/coregfuns-ll.c.

Throughout, `float` and `double` arithmetic is carried out exactly in ℚ; the conversions to integers
are the ones of C (truncation). The least-squares patch matching itself (`LSMatching_SAM`, the
points of interest, initial, depth-first and dense matching) is a parameter: the model starts from
the tie points that it delivers.
-/

namespace Verif.Coreg

open Verif.Str (Out)
open Verif.Index (truncQ short)

/-! ### Linear equations -/

abbrev Mat := Nat → Nat → ℚ
abbrev Vec := Nat → ℚ

/-- coregfuns-ll.c:362-370: the element of column `k`, at or below the diagonal, with the largest
magnitude (the last one among equals), and its row. -/
def pivot (n k : Nat) (A : Mat) : ℚ × Nat :=
  (List.range' k (n - k)).foldl
    (fun (st : ℚ × Nat) (i : Nat) => if |A i k| ≥ |st.1| then (A i k, i) else st) (0, 0)

/-- coregfuns-ll.c:371-378: rows `k` and `i0` are exchanged from column `k` on. The test `i != k` at
371 is always true, since `i` is `n` there. -/
def swapMat (k i0 : Nat) (A : Mat) : Mat := fun i j =>
  if k ≤ j then (if i = k then A i0 j else if i = i0 then A k j else A i j) else A i j

/-- coregfuns-ll.c:379-381. -/
def swapVec (k i0 : Nat) (B : Vec) : Vec := fun i =>
  if i = k then B i0 else if i = i0 then B k else B i

/-- coregfuns-ll.c:386-393. Column `k` itself is left as it is. -/
def elimMat (k : Nat) (C : ℚ) (A : Mat) : Mat := fun i j =>
  if k < j then (if i = k then A k j / C else if k < i then A i j - A i k * (A k j / C) else A i j)
  else A i j

/-- coregfuns-ll.c:394-398. -/
def elimVec (k : Nat) (C : ℚ) (A : Mat) (B : Vec) : Vec := fun i =>
  if i = k then B k / C else if k < i then B i - B k / C * A i k else B i

/-- coregfuns-ll.c:360-399: one step of the elimination; `none` if there is no pivot (383-384). -/
def stage (n : Nat) (s : Mat × Vec) (k : Nat) : Option (Mat × Vec) :=
  let p := pivot n k s.1
  let A := swapMat k p.2 s.1
  let B := swapVec k p.2 s.2
  if |p.1| ≤ 0 then none else some (elimMat k p.1 A, elimVec k p.1 A B)

/-- coregfuns-ll.c:400-406: back substitution. -/
def back (n : Nat) (A : Mat) (B : Vec) : Vec :=
  (List.range (n - 1)).reverse.foldl
    (fun (B : Vec) (i : Nat) => fun (r : Nat) =>
      if r = i then B i - ((List.range' (i + 1) (n - (i + 1))).map (fun j => A i j * B j)).sum else B r) B

/-- coregfuns-ll.c:355-409, `INVSQR1`: solves `A x = B` in place; the solution overwrites `B` and `A`
is overwritten too. `none`: it returned 0. -/
def solve (n : Nat) (A : Mat) (B : Vec) : Option (Mat × Vec) :=
  ((List.range n).foldlM (stage n) (A, B)).map (fun s => (s.1, back n s.1 s.2))

/-! ### Transformations -/

/-- A tie point: position in the one and in the other image. -/
structure Tie where
  x1 : ℚ
  y1 : ℚ
  x2 : ℚ
  y2 : ℚ

/-- coreg-ll.c:52. -/
inductive Kind where
  | translation
  | affine
  | polynomial
deriving DecidableEq, Repr

/-- coregfuns-ll.c:447, 531, 607: the number of coefficients. -/
def Kind.size : Kind → Nat
  | .translation => 2
  | .affine => 6
  | .polynomial => 12

/-- coregfuns-ll.c:466-468, 550, 626-628: the coefficients at the start. -/
def Kind.start : Kind → Vec
  | .translation => fun _ => 0
  | .affine => fun k => if k = 1 ∨ k = 5 then 1 else 0
  | .polynomial => fun k => if k = 1 ∨ k = 8 then 1 else 0

/-- coregfuns-ll.c:508, 582, 683: the second coefficient of the stop criterion. -/
def Kind.second : Kind → Nat
  | .translation => 1
  | .affine => 3
  | .polynomial => 6

/-- The monomials at coregfuns-ll.c:635-640. -/
def monomial (x y : ℚ) : Nat → ℚ
  | 0 => 1
  | 1 => x
  | 2 => y
  | 3 => x * x
  | 4 => x * y
  | 5 => y * y
  | _ => 0

/-- coregfuns-ll.c:474-499, 556-573, 634-674: the two rows of the design matrix for one tie point, with
the number that the row should give. -/
def Kind.rows : Kind → Tie → List (Vec × ℚ)
  | .translation => fun t =>
    [(fun k => if k = 0 then 1 else 0, t.x2 - t.x1), (fun k => if k = 1 then 1 else 0, t.y2 - t.y1)]
  | .affine => fun t =>
    [(fun k => if k < 3 then monomial t.x1 t.y1 k else 0, t.x2),
     (fun k => if k < 3 then 0 else if k < 6 then monomial t.x1 t.y1 (k - 3) else 0, t.y2)]
  | .polynomial => fun t =>
    [(fun k => if k < 6 then monomial t.x1 t.y1 k else 0, t.x2),
     (fun k => if k < 6 then 0 else monomial t.x1 t.y1 (k - 6), t.y2)]

/-- The sum in `L`, e.g. coregfuns-ll.c:480 (with the terms whose factor is zero written out). -/
def dot (m : Nat) (a c : Vec) : ℚ := ((List.range m).map (fun k => a k * c k)).sum

/-- coregfuns-ll.c:481-486: the normal matrix, added to what is in it. -/
def addN (rows : List (Vec × ℚ)) (N : Mat) : Mat := fun k r =>
  N k r + (rows.map (fun w => w.1 k * w.1 r)).sum

/-- coregfuns-ll.c:481-486: the right hand side, added to what is in it. -/
def addU (m : Nat) (rows : List (Vec × ℚ)) (c U : Vec) : Vec := fun k =>
  U k + (rows.map (fun w => w.1 k * (w.2 - dot m w.1 c))).sum

/-- coregfuns-ll.c:508, 582, 683: `abs` is the absolute value of an `int`, thus of the truncated
number; 0.001 is `DELTA_LIMIT` (44). -/
def small (x : ℚ) : Bool := decide ((|truncQ x| : ℚ) < 1 / 1000)

/-- coregfuns-ll.c:469-512, 551-588, 629-687: the iterations. `N` and `U` are not reset in between. -/
def iterate (k : Kind) (rows : List (Vec × ℚ)) : Nat → Mat → Vec → Vec → Vec
  | 0, _, _, c => c
  | t + 1, N, U, c =>
    match solve k.size (addN rows N) (addU k.size rows c U) with
    | none => c
    | some (N', U') =>
      let c' : Vec := fun i => if i < k.size then c i + U' i else c i
      if small (U' 0) && small (U' k.second) then c' else iterate k rows t N' U' c'

/-- coregfuns-ll.c:447-512, 531-588, 607-687: the coefficients after fitting. With too few points they
are left as they were. -/
def coefficients (k : Kind) (ties : List Tie) (old : Vec) : Vec :=
  if ties.length < k.size then old else
    iterate k (ties.flatMap k.rows) 10 (fun _ _ => 0) (fun _ => 0)
      (fun i => if i < k.size then k.start i else old i)

/-- coregfuns-ll.c:706-736, `GetTransformedCoords`. -/
def transformed (k : Kind) (c : Vec) (x y : ℚ) : ℚ × ℚ :=
  match k with
  | .translation => (c 0 + x, c 1 + y)
  | .affine => (c 0 + c 1 * x + c 2 * y, c 3 + c 4 * x + c 5 * y)
  | .polynomial =>
    (c 0 + c 1 * x + c 2 * y + c 3 * x * x + c 4 * x * y + c 5 * y * y,
     c 6 + c 7 * x + c 8 * y + c 9 * x * x + c 10 * x * y + c 11 * y * y)

/-- coregfuns-ll.c:515-520, 591-596, 690-695: the square of the residual of a tie point. -/
def resid2 (k : Kind) (c : Vec) (t : Tie) : ℚ :=
  let p := transformed k c t.x1 t.y1
  (p.1 - t.x2) ^ 2 + (p.2 - t.y2) ^ 2

/-- coregfuns-ll.c:412-433, `RMSE1`: the square of the root mean squared error, from the squares of the
residuals. -/
def rmse2 (t : Nat) (r2 : List ℚ) : ℚ :=
  if r2.length ≤ t then 9999 ^ 2 else r2.sum / ((r2.length - t : Nat) : ℚ)

/-- What is known after fitting: coefficients, squared residuals, squared root mean squared error. With
too few points the latter are zero (coregfuns-ll.c:456-462). -/
structure Fitted where
  coefs : Vec
  res2 : List ℚ
  err2 : ℚ

/-- coregfuns-ll.c:447-528, 531-604, 607-703. -/
def fit (k : Kind) (ties : List Tie) (old : Vec) : Fitted :=
  let c := coefficients k ties old
  if ties.length < k.size then ⟨c, ties.map (fun _ => 0), 0⟩
  else
    let r2 := ties.map (resid2 k c)
    ⟨c, r2, rmse2 k.size r2⟩

/-! ### Outliers -/

/-- coreg-ll.c:1065-1081, 1210-1226, one round of the loop at position `n`: `a` are the tie points with the
square of their residuals, `none` is what is written behind the last one (-1). Moving a block of the
array by one position leaves it without the removed element and with a `-1` at the end of the block.
Squares are compared: `r > 2 s` for `r, s ≥ 0`. `fuel` bounds the number of rounds. -/
def removeOutliers (err2 : ℚ) (total : Nat) :
    Nat → Nat → Nat → List (Option (Tie × ℚ)) → List (Option (Tie × ℚ)) × Nat
  | 0, _, nout, a => (a, nout)
  | fuel + 1, n, nout, a =>
    if n < total then
      match a.getD n none with
      | none => (a, nout)
      | some (_, r2) =>
        if r2 > 2 ^ 2 * err2 then
          removeOutliers err2 total fuel n (nout + 1)
            (((a.take (total - nout)).eraseIdx n) ++ none :: a.drop (total - nout))
        else removeOutliers err2 total fuel (n + 1) nout a
    else (a, nout)

/-- coreg-ll.c:1064-1089, 1209-1233: the tie points that are left. -/
def inliers (ties : List Tie) (f : Fitted) : List Tie :=
  let a := (ties.zip f.res2).map some
  let s := removeOutliers f.err2 ties.length (2 * ties.length + 1) 0 0 a
  (s.1.take (ties.length - s.2)).filterMap (Option.map Prod.fst)

/-- coreg-ll.c:1270-1279, `choose_transform`. -/
def chooseTransform (n : Nat) : Kind :=
  if 36 < n then .polynomial else if 18 < n then .affine else .translation

/-- coreg-ll.c:1008-1121, `transform_from_df` as called at 984 (`enum_AUTO`): the kind and the coefficients,
and the number of tie points. -/
def transformFromDf (ties : List Tie) : Kind × Vec × Nat :=
  if ties.length < 2 then (.translation, fun _ => 0, 0)
  else
    let f := fit (chooseTransform ties.length) ties (fun _ => 0)
    let left := inliers ties f
    let k := chooseTransform left.length
    (k, (fit k left f.coefs).coefs, left.length)

/-- coreg-ll.c:44. -/
def minTies : Nat := 12

/-- coreg-ll.c:1136-1263, `transform_from_dm`: coefficients and number of tie points. -/
def transformFromDm (k : Kind) (ties : List Tie) : Vec × Nat :=
  if ties.length < minTies then (fun _ => 0, ties.length)
  else
    let f := fit k ties (fun _ => 0)
    let left := inliers ties f
    if left.length < minTies then (f.coefs, left.length)
    else ((fit k left f.coefs).coefs, left.length)

/-! ### The attempts -/

/-- coreg-ll.c:163-220: the loop over the attempts. `found sam layer` is the number of tie points that the
matching finds with a similarity threshold and a top layer of the pyramid. The result is the threshold
and the layer of the successful attempt. -/
def attempts (found : ℚ → Nat → Nat) : Nat → ℚ → Nat → Option (ℚ × Nat)
  | 0, _, _ => none
  | fuel + 1, sam, top =>
    if found sam top ≥ minTies then some (sam, top)
    else if sam - 5 / 1000 ≥ 985 / 1000 then
      let sam' := sam - 5 / 1000
      if |sam' - 985 / 1000| ≤ 1 / 10000 ∧ top > 2 then attempts found fuel (99 / 100) 2
      else attempts found fuel sam' top
    else none

/-! ### Registering -/

/-- An image: columns, rows, the pixels row by row. -/
structure Img where
  nx : Nat
  ny : Nat
  px : List Int

/-- The pixel in column `j` and row `i`, if it is in the image (e.g. coreg-ll.c:1327-1328). -/
def Img.at (im : Img) (j i : Int) : Option Int :=
  if 0 ≤ j ∧ j < im.nx ∧ 0 ≤ i ∧ i < im.ny then
    some (im.px.getD (i.toNat * im.nx + j.toNat) 0) else none

/-- coreg-ll.c:1321-1367: the four neighbours with their weights. -/
def neighbours (x y : ℚ) : List (Int × Int × ℚ) :=
  let j := truncQ x
  let i := truncQ y
  let dx := x - j
  let dy := y - i
  [(j, i, (1 - dx) * (1 - dy)), (j + 1, i, dx * (1 - dy)), (j + 1, i + 1, dx * dy),
   (j, i + 1, (1 - dx) * dy)]

/-- coreg-ll.c:1327-1334: value and weight of a neighbour, unless it is outside or has no data. -/
def usable (im : Img) (nodata : Int) (q : Int × Int × ℚ) : Option (Int × ℚ) :=
  match im.at q.1 q.2.1 with
  | none => none
  | some v => if v = nodata then none else some (v, q.2.2)

/-- coreg-ll.c:1315-1374: one pixel of the registered band. -/
def registerPixel (k : Kind) (c : Vec) (im : Img) (nodata : Int) (j i : Nat) : Out Int :=
  let p := transformed k c j i
  let u := (neighbours p.1 p.2).filterMap (usable im nodata)
  let weightsum := (u.map (fun v => v.2)).sum
  let avg := (u.map (fun v => (v.1 : ℚ) * v.2)).sum
  if weightsum > 0 then short (avg / weightsum + 1 / 2) else .ok nodata

/-- coreg-ll.c:1423-1432: one pixel of the registered quality band. -/
def qualityPixel (k : Kind) (c : Vec) (im : Img) (nodata : Int) (j i : Nat) : Int :=
  let p := transformed k c j i
  (im.at (truncQ (p.1 + 1 / 2 + 1 / 10000000000)) (truncQ (p.2 + 1 / 2 + 1 / 10000000000))).getD nodata

/-- coreg-ll.c:1291-1388, `register_band`. The pixels are independent of each other, so the order in which
the threads process them is immaterial. -/
def registerBand (k : Kind) (c : Vec) (im : Img) (nodata : Int) : Out (List Int) :=
  Verif.Str.mapOut (fun p => registerPixel k c im nodata (p % im.nx) (p / im.nx)) (List.range (im.nx * im.ny))

/-- coreg-ll.c:1401-1446, `register_quality`. -/
def registerQuality (k : Kind) (c : Vec) (im : Img) (nodata : Int) : List Int :=
  (List.range (im.nx * im.ny)).map (fun p => qualityPixel k c im nodata (p % im.nx) (p / im.nx))

/-- coreg-ll.c:1720-1725 with 1658: the quality flag `off` is made to agree with the band, for `nc` pixels,
where `nc` is the number of rows. `off` are the flags of the registered quality band. -/
def reconcile (ny : Nat) (nodata : Int) (band : List Int) (off : List Bool) : List Bool :=
  (List.range off.length).map (fun p =>
    if p < ny then decide (band.getD p 0 = nodata) else off.getD p false)

/-- coreg-ll.c:236, 247-255: after dense matching; `none`: the program ends with status 1. -/
def accepted (c : Vec) : Bool := decide (c 0 * c 0 + c 3 * c 3 ≤ 6 ^ 2)

/-- coreg-ll.c:223-255, 1720-1725: bands and `off` flags after co-registration with the tie points of
the dense matching. The quality band is represented by its `off` flags (1 or 0). -/
def coregister (ties : List Tie) (bands : List Img) (off : Img) (nodata : Int) (band : Nat) :
    Out (List (List Int) × List Bool) :=
  let c := (transformFromDm .affine ties).1
  if accepted c then
    (Verif.Str.mapOut (fun b => registerBand .affine c b nodata) bands).bind (fun bs =>
      .ok (bs, reconcile off.ny nodata (bs.getD band [])
        ((registerQuality .affine c off 1).map (fun q => decide (q = 1)))))
  else .exit

/-! ### The base image -/

/-- dir-cl.c:108-145, `findfile_starts` without a filter: `names` is the directory in the order of
`readdir`, `size` the length of the buffer. -/
def findStarts (dir : List Char) (names : List (List Char)) (pattern : List Char) (size : Nat) :
    Option (List Char) :=
  match names.find? (fun n => pattern.isPrefixOf n) with
  | none => none
  | some n => if dir.length + n.length + 1 > size ∨ dir.length + 1 + n.length ≥ size then none
              else some (dir ++ '/' :: n)

/-- coreg-ll.c:1676-1685: the years are tried from `year` on backwards; `dy` at most 49. -/
def findBase (dir : List Char) (names : List (List Char)) (year : Int) : Nat → Nat → Option (List Char)
  | 0, _ => none
  | fuel + 1, dy =>
    match findStarts dir names (Verif.Libc.fmtInt0 4 (year - dy)) 1024 with
    | some f => some f
    | none => findBase dir names year fuel (dy + 1)

/-- coreg-ll.c:1675-1700: file and band of the base image. -/
def baseImage (dir : List Char) (names : List (List Char)) (year month : Int) : Option (List Char × Int) :=
  (findBase dir names year 50 0).map (fun f => (f, month - 1))

/-! ### Pyramids -/

/-- coregfuns-ll.c:933-935 and the like: one element of the filter. The pixel with number
`(i + k - h) W + (j + l - h)` is read: `none` if it is outside of the array. -/
def blurStep (px : List Int) (W : Nat) (nodata : Int) (f : Nat → ℚ) (w h i j : Nat) (st : ℚ × ℚ) (kl : Nat × Nat) :
    Option (ℚ × ℚ) :=
  match px[((i + kl.1 - h) * W + (j + kl.2 - h))]? with
  | none => none
  | some v => if v = nodata then some st
      else some (st.1 + v * f (kl.1 * w + kl.2), st.2 + f (kl.1 * w + kl.2))

/-- coregfuns-ll.c:929-945 and 963-983: one pixel of the blurred image; rows `k1 ≤ k < k2` and columns
`l1 ≤ l < l2` of the filter are used. -/
def blurSum (px : List Int) (W : Nat) (nodata : Int) (f : Nat → ℚ) (w h i j k1 k2 l1 l2 : Nat) :
    Option (ℚ × ℚ) :=
  ((List.range' k1 (k2 - k1)).flatMap (fun k => (List.range' l1 (l2 - l1)).map (fun l => (k, l)))).foldlM
    (blurStep px W nodata f w h i j) (0, 0)

/-- coregfuns-ll.c:939-945 and the like. -/
def blurEnd (nodata : Int) (s : ℚ × ℚ) : Out Int :=
  if |s.2| < 1 / 10000000000 then .ok nodata else short (s.1 / s.2 + 1 / 10000000000)

/-- coregfuns-ll.c:965-968 and the like: the window at a border. -/
def borderWindow (W H w h i j : Nat) : Nat × Nat × Nat × Nat :=
  (h - i, if (H - i) < w then H - i else w, h - j, if (W - j) < w then W - j else w)

/-- coregfuns-ll.c:906-1112, `Conv2same`: the pixel in row `i` and column `j` of the blurred image (only
pixels whose row and column are multiples of the step are computed). The four passes for the borders
use the same window, and overwrite each other with the same value. `h ≤ H` and `h ≤ W` are assumed: the
passes at 1008-1010 and 1077-1079 start at a negative row or column otherwise. -/
def blurPixel (px : List Int) (W H : Nat) (nodata : Int) (f : Nat → ℚ) (w i j : Nat) : Out Int :=
  let h := (w - 1) / 2
  let win := if h ≤ i ∧ i < H - h ∧ h ≤ j ∧ j < W - h then (0, w, 0, w) else borderWindow W H w h i j
  match blurSum px W nodata f w h i j win.1 win.2.1 win.2.2.1 win.2.2.2 with
  | none => .ub
  | some s => blurEnd nodata s

/-- coreg-ll.c:390-445, `build_pyramidlayer`: every `step`-th pixel of the blurred image. -/
def pyramidLayer (px : List Int) (W H : Nat) (nodata : Int) (f : Nat → ℚ) (w step : Nat) : Out (List Int) :=
  Verif.Str.mapOut (fun p => blurPixel px W H nodata f w (p / (W / step) * step) (p % (W / step) * step))
    (List.range (W / step * (H / step)))

/-! ### Similarity of patches -/

/-- coregfuns-ll.c:280-318, `SAM`: cosine of the spectral angle, as numerator and the square of the
denominator; zero if one of the patches is blank. -/
def sam (a b : List Int) : ℚ × ℚ :=
  let sxx : ℚ := (a.map (fun (v : Int) => (v : ℚ) * v)).sum
  let syy : ℚ := (b.map (fun (v : Int) => (v : ℚ) * v)).sum
  let sxy : ℚ := ((a.zip b).map (fun v => (v.1 : ℚ) * v.2)).sum
  if sxx > 0 ∧ syy > 0 then (sxy, sxx * syy) else (0, 1)

/-- coregfuns-ll.c:759-792, `corr2`: the correlation, as numerator and the square of the denominator. -/
def corr2 (a b : List Int) : ℚ × ℚ :=
  let n : ℚ := a.length
  let l1 : ℚ := (a.map (fun (v : Int) => (v : ℚ))).sum
  let l2 : ℚ := (a.map (fun (v : Int) => (v : ℚ) * v)).sum
  let r1 : ℚ := (b.map (fun (v : Int) => (v : ℚ))).sum
  let r2 : ℚ := (b.map (fun (v : Int) => (v : ℚ) * v)).sum
  let lr : ℚ := ((a.zip b).map (fun v => (v.1 : ℚ) * v.2)).sum
  let cl := l2 - l1 * l1 / n
  let c1 := lr - l1 * r1 / n
  let c2 := cl * (r2 - r1 * r1 / n)
  if c2 < 1 / 10000000 ∧ c2 > -(1 / 10000000) then (0, 1) else (c1, c2)

end Verif.Coreg
