import Verif.Index.Model
import Verif.Stats.Model

/-!
# Model of the ImproPhe code (resolution merge of coarse data)

`src/modules/higher-level/improphe-hl.c`: seasonal averages (`average_season`, 290-409), standardisation
(`standardize_float`, 419-443), texture (`focal_sd`, 459-519) and the prediction (`improphe`, 59-249,
`rescale_weight`, 258-271); and the drivers `level2_improphe` (l2-improphe-hl.c:158-339) and
`confield_improphe` (cf-improphe-hl.c:180-373).

Simplifications: exact arithmetic; `ex` is `exp`, `sq` is `sqrt`. The quotient of the two weighted sums of
`improphe` is rounded: `dbl` stands for the errors of the `double` computation, `flt` for the conversion to
`float`. Images are functions of row and column. The principal components (`pca`) are a parameter. The order in which
threads treat the pixels does not matter: each pixel is written by one iteration only, and nothing that is
written is read. Memory of a brick is zero when allocated.
-/

namespace Verif.Imp

open Verif.Str (Out)
open Verif.Index (short truncQ)

/-! ## Seasonal averages -/

/-- One acquisition at one pixel. -/
structure Obs where
  msk : Bool
  year : Int
  doy : Int
  dat : Nat → Int

/-- improphe-hl.c:336-351: the three conditions for the window from `a` to `b`. -/
def inWindow (a b ywin year doy : Int) : Bool :=
  (decide (a < b) && decide (doy ≥ a) && decide (doy < b) && (decide (year = ywin) || decide (ywin < 0))) ||
  (decide (a > b) &&
    ((decide (doy ≥ a) && decide (doy ≤ 365) && (decide (year = ywin - 1) || decide (ywin < 0))) ||
     (decide (doy < b) && (decide (year = ywin) || decide (ywin < 0))))) ||
  (decide (a > b) &&
    ((decide (doy ≥ a) && decide (doy ≤ 365) && (decide (year = ywin) || decide (ywin < 0))) ||
     (decide (doy < b) && (decide (year = ywin + 1) || decide (ywin < 0)))))

/-- improphe-hl.c:334-353: the first window that matches. `dwin` are the `nwin + 1` breakpoints. -/
def windowOf (dwin : Nat → Int) (nwin : Nat) (ywin : Int) (o : Obs) : Option Nat :=
  (List.range nwin).find? fun w => inWindow (dwin w) (dwin (w + 1)) ywin o.year o.doy

/-- Sums and counts; entry `nwin` is for all windows. -/
structure Acc where
  avg : Nat → Nat → Int
  k : Nat → Nat

/-- improphe-hl.c:319-323. -/
def Acc.init : Acc := ⟨fun _ _ => 0, fun _ => 0⟩

/-- improphe-hl.c:326-369: one acquisition. -/
def Acc.add (dwin : Nat → Int) (nwin : Nat) (ywin : Int) (a : Acc) (o : Obs) : Acc :=
  if !o.msk then a
  else
    match windowOf dwin nwin ywin o with
    | none => a
    | some w =>
      { avg := fun v b => if v = w ∨ v = nwin then a.avg v b + o.dat b else a.avg v b
        k := fun v => if v = w ∨ v = nwin then a.k v + 1 else a.k v }

/-- improphe-hl.c:311-395: the average of band `b` in window `w` at one pixel. `double` sums of `short` are
exact. -/
def average (dwin : Nat → Int) (nwin : Nat) (ywin nodata : Int) (masked : Bool) (obs : List Obs) (w b : Nat) :
    Out Int :=
  if masked then .ok nodata
  else
    let a := obs.foldl (Acc.add dwin nwin ywin) Acc.init
    if a.k nwin = 0 then .ok nodata
    else if a.k w > 0 then short ((a.avg w b : ℚ) / a.k w)
    else short ((a.avg nwin b : ℚ) / a.k nwin)

/-- improphe-hl.c:371, 393 and 406: does the pixel count as valid? -/
def counted (dwin : Nat → Int) (nwin : Nat) (ywin : Int) (masked : Bool) (obs : List Obs) : Bool :=
  !masked && decide ((obs.foldl (Acc.add dwin nwin ywin) Acc.init).k nwin ≠ 0)

/-! ## Images -/

/-- One band. -/
abbrev Band := Int → Int → ℚ

/-- The offsets of a square window of radius `h`, row by row. -/
def window (h : Nat) : List (Int × Int) :=
  (List.range (2 * h + 1)).flatMap fun (a : Nat) => (List.range (2 * h + 1)).map fun (b : Nat) =>
    ((a : Int) - h, (b : Int) - h)

/-- Is the pixel in the image? -/
def inside (nx ny : Nat) (i j : Int) : Bool := !(decide (i < 0) || decide (j < 0) || decide (i ≥ ny) || decide (j ≥ nx))

/-! ## Texture and standardisation -/

/-- improphe-hl.c:428-432 and 494-498: count, mean and sum of squares; the first value sets the mean. -/
def update (s : ℚ × ℚ × ℚ) (x : ℚ) : ℚ × ℚ × ℚ :=
  let k := s.1 + 1
  if k = 1 then (k, x, s.2.2)
  else
    let r := Verif.Stats.varRec x s.2.1 s.2.2 k
    (k, r.1, r.2)

/-- stats-cl.c:278-281 `standdev`; `none`: not a number. With a count of zero the quotient is -0.0 and its root -0.0. -/
def standdev (sq : ℚ → ℚ) (var k : ℚ) : Option ℚ :=
  if k = 1 then none else some (sq (var / (k - 1)))

/-- improphe-hl.c:483-492: the valid values of a window. -/
def valuesAt (d : Band) (nodata : ℚ) (h nx ny : Nat) (i j : Int) : List ℚ :=
  (window h).filterMap fun o =>
    if !inside nx ny (i + o.1) (j + o.2) then none
    else if d (i + o.1) (j + o.2) = nodata then none
    else some (d (i + o.1) (j + o.2))

/-- improphe-hl.c:502: the larger standard deviation; a comparison with a number that is not a number is false. -/
def larger (m : ℚ) (s : Option ℚ) : ℚ :=
  match s with
  | none => m
  | some s => if s > m then s else m

/-- improphe-hl.c:459-519 `focal_sd` for one pixel and the given bands. -/
def focalSd (sq : ℚ → ℚ) (bands : List Band) (nodata : ℚ) (h nx ny : Nat) (i j : Int) : ℚ :=
  bands.foldl (fun m d =>
    let s := (valuesAt d nodata h nx ny i j).foldl update (0, 0, 0)
    larger m (standdev sq s.2.2 s.1)) 0

/-- improphe-hl.c:419-443 `standardize_float`; `none`: a division by zero or by a number that is not a number. -/
def standardize (sq : ℚ → ℚ) (nodata : ℚ) (l : List ℚ) : List (Option ℚ) :=
  let s := (l.filter (· ≠ nodata)).foldl update (0, 0, 0)
  l.map fun x =>
    if x = nodata then some x
    else
      match standdev sq s.2.2 s.1 with
      | none => none
      | some sd => if sd = 0 then none else some ((x - s.2.1) / sd)

/-! ## Prediction -/

/-- The images and numbers `improphe` gets. -/
structure Input where
  nx : Nat
  ny : Nat
  nbHr : Nat
  nbMr : Nat
  hr : Nat → Band
  hrTex : Band
  mr : Nat → Int → Int → Int
  mrTex : Nat → Band
  nodataHr : ℚ
  nodataMr : Int
  h : Nat
  mink : Nat

/-- What is kept of a neighbour. -/
structure Rec where
  cls : Nat
  s : ℚ
  t : ℚ
  u : Nat → ℚ
  m : Nat → Int

/-- improphe-hl.c:80: the thresholds (exact decimals). -/
def thresholds : List ℚ := [25/1000, 5/100, 1/10, 2/10, 4/10]

/-- improphe-hl.c:88-92 and 134-139. -/
def anyNodata (inp : Input) (i j : Int) : Bool := (List.range inp.nbMr).any fun b => decide (inp.mr b i j = inp.nodataMr)

/-- improphe-hl.c:141-143. -/
def similarity (inp : Input) (i j i' j' : Int) : ℚ :=
  ((List.range inp.nbHr).foldl (fun sum b => sum + |inp.hr b i j - inp.hr b i' j'|) 0) / inp.nbHr

/-- improphe-hl.c:145-149. -/
def classOf (s : ℚ) : Option Nat := thresholds.findIdx? fun t => decide (s < t)

/-- improphe-hl.c:123-184: one neighbour. The distance of the offset is compared squared. -/
def neighbour (inp : Input) (i j : Int) (o : Int × Int) : Option Rec :=
  let i' := i + o.1
  let j' := j + o.2
  if !inside inp.nx inp.ny i' j' then none
  else if o.1 * o.1 + o.2 * o.2 > (inp.h : Int) * inp.h then none
  else if inp.hr 0 i' j' = inp.nodataHr then none
  else if anyNodata inp i' j' then none
  else
    let s := similarity inp i j i' j'
    match classOf s with
    | none => none
    | some c => some ⟨c, s, inp.hrTex i' j', fun b => inp.mrTex b i' j', fun b => inp.mr b i' j'⟩

/-- improphe-hl.c:119-121: all neighbours. -/
def records (inp : Input) (i j : Int) : List Rec := (window inp.h).filterMap (neighbour inp i j)

/-- improphe-hl.c:107-116 and 152-184: the range of a quantity in class `c` and better. -/
def range (v : Rec → ℚ) (c : Nat) (l : List Rec) : ℚ × ℚ :=
  l.foldl (fun r k =>
    if v k > 0 ∧ k.cls ≤ c then (if v k < r.1 then v k else r.1, if v k > r.2 then v k else r.2) else r)
    (2147483647, -2147483648)

/-- improphe-hl.c:187: number of neighbours in class `c` and better. -/
def count (l : List Rec) (c : Nat) : Nat := (l.filter fun k => decide (k.cls ≤ c)).length

/-- improphe-hl.c:206-210. -/
def choose (mink : Nat) (l : List Rec) : Nat := ((List.range 5).find? fun c => decide (count l c ≥ mink)).getD 4

/-- improphe-hl.c:258-271 `rescale_weight`. -/
def rescale (ex : ℚ → ℚ) (w mn mx : ℚ) : ℚ :=
  if w = 0 then 1
  else if mn = mx then 1
  else 1 + ex (25 * ((w - mn) / (mx - mn)) - 75 / 10)

/-- improphe-hl.c:218-226: the weight of a neighbour for band `b`. -/
def weight (ex : ℚ → ℚ) (l : List Rec) (c b : Nat) (k : Rec) : ℚ :=
  let ss := rescale ex k.s (range Rec.s c l).1 (range Rec.s c l).2
  let tt := rescale ex k.t (range Rec.t c l).1 (range Rec.t c l).2
  let uu := rescale ex (k.u b) (range (fun k => k.u b) c l).1 (range (fun k => k.u b) c l).2
  1 / (ss * tt * uu)

/-- improphe-hl.c:213-232: the two sums. -/
def sums (ex : ℚ → ℚ) (l : List Rec) (c b : Nat) : ℚ × ℚ :=
  l.foldl (fun a k =>
    if k.cls > c then a else (a.1 + weight ex l c b k * k.m b, a.2 + weight ex l c b k)) (0, 0)

/-- improphe-hl.c:59-249 `improphe`: the prediction of band `b`; `none`: nothing is written. -/
def improphe (ex dbl flt : ℚ → ℚ) (inp : Input) (i j : Int) (b : Nat) : Option (Out Int) :=
  if anyNodata inp i j then none
  else
    let l := records inp i j
    if l.length = 0 then some (.ok (inp.mr b i j))
    else
      let a := sums ex l (choose inp.mink l) b
      if a.2 = 0 then some .ub
      else some (short (flt (dbl (a.1 / a.2))))

/-! ## Drivers -/

/-- A chunk of coarse data (one acquisition, or all features of one year) with the fine resolution images. -/
structure Chunk where
  nx : Nat
  ny : Nat
  nbHr : Nat
  nbMr : Nat
  hr : Nat → Band
  nodataHr : ℚ
  nodata : Int
  ksize : Nat
  ksd : Nat
  mink : Nat
  masked : Int → Int → Bool
  dat : Nat → Int → Int → Int

/-- improphe's input of a driver: textures are computed, `mr` is the masked data. -/
def input (sq : ℚ → ℚ) (ch : Chunk) (mr : Nat → Int → Int → Int) : Input :=
  { nx := ch.nx, ny := ch.ny, nbHr := ch.nbHr, nbMr := ch.nbMr, hr := ch.hr
    hrTex := focalSd sq ((List.range ch.nbHr).map ch.hr) ch.nodataHr ch.ksd ch.nx ch.ny
    mr := mr
    mrTex := fun b => focalSd sq [fun i j => (mr b i j : ℚ)] ch.nodata ch.ksd ch.nx ch.ny
    nodataHr := ch.nodataHr, nodataMr := ch.nodata, h := ch.ksize, mink := ch.mink }

/-- l2-improphe-hl.c:269-329 for one acquisition with validity `msk`, and 217-231: band `b` of the product at one
pixel. -/
def l2 (ex sq dbl flt : ℚ → ℚ) (isEmpty : Bool) (ch : Chunk) (msk : Int → Int → Bool) (b : Nat) (i j : Int) :
    Out Int :=
  if isEmpty then .ok (ch.dat b i j)
  else
    let mr := fun b i j => if ch.masked i j then ch.nodata else if !msk i j then ch.nodata else ch.dat b i j
    let first : Out Int :=
      if ch.masked i j then .ok ch.nodata else if !msk i j then .ok (ch.dat b i j) else .ok 0
    if mr 0 i j = ch.nodata then first
    else (improphe ex dbl flt (input sq ch mr) i j b).getD first

/-- cf-improphe-hl.c:303-357 for one year with validity `msk f` of the features: feature `f` of the product at one
pixel. -/
def year (ex sq dbl flt : ℚ → ℚ) (ch : Chunk) (msk : Nat → Int → Int → Bool) (f : Nat) (i j : Int) : Out Int :=
  let mr := fun f i j => if ch.masked i j then ch.nodata else if !msk f i j then ch.nodata else ch.dat f i j
  let pred : Out Int :=
    if ch.masked i j then .ok ch.nodata else if !msk f i j then .ok (ch.dat f i j) else .ok 0
  if mr 0 i j = ch.nodata then .ok 0
  else (improphe ex dbl flt (input sq ch mr) i j f).getD pred

/-- One band of a product: feature, row, column. -/
abbrev Plane := Nat → Int → Int → Out Int

/-- cf-improphe-hl.c:254-366: the years. `empty` is the outcome of `average_season`, `copy` the data of the
year. -/
def years (empty : Int → Bool) (copy predict : Int → Plane) : List Int → List Plane
  | [] => []
  | y :: ys => if empty y then copy y :: ys.map fun _ => fun _ _ _ => .ok 0 else predict y :: years empty copy predict ys

/-- cf-improphe-hl.c:214-373: `none`: failure. `n` bands from year `y0` on; `data k` are the data of band `k`. -/
def confield (ex sq dbl flt : ℚ → ℚ) (empty : Int → Bool) (chunk : Int → Nat → Chunk)
    (msk : Nat → Int → Int → Bool) (y0 n : Int) (ys : List Int) : Option (List Plane) :=
  if ys.any fun y => decide (y - y0 ≥ n) then none
  else
    some (years empty
      (fun y f i j => if y - y0 < 0 then .ub else .ok ((chunk y (y - y0).toNat).dat f i j))
      (fun y f i j => if y - y0 < 0 then .ub else year ex sq dbl flt (chunk y (y - y0).toNat) msk f i j) ys)

end Verif.Imp
