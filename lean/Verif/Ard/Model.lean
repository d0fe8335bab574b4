import Verif.Str.Model
import Verif.Date.Model
import Verif.Season.Model
import Verif.Qai.Model
import Mathlib.Analysis.SpecialFunctions.Exp
import Mathlib.Analysis.Real.Pi.Bounds
import Mathlib.Algebra.Order.Floor.Ring

/-!
# Model of the selection and the reading of Level 2 data

`src/modules/higher-level/read-ard-hl.c` (file lists, masks, features, quality, aggregation with a point spread function) and the Gaussian kernel of
`src/modules/cross-level/imagefuns-cl.c`. Simplifications: `float` and `double` are real numbers; directory entries, results of reading a file, and pixel
values are parameters.
-/

namespace Verif.Ard

open Verif.Str (Out strstr)

/-! ## Names of files -/

/-- The separators of the fields, read-ard-hl.c:186, 228. -/
def isFieldSep (c : Char) : Bool := c = '_' || c = '.'

/-- libc `strtok_r`: the next word and the rest; `none`: NULL. -/
def word (s : List Char) : Option (List Char × List Char) :=
  match s.dropWhile isFieldSep with
  | [] => none
  | c :: cs => some ((c :: cs).takeWhile (fun c => !isFieldSep c), ((c :: cs).dropWhile (fun c => !isFieldSep c)).drop 1)

/-- read-ard-hl.c:188-201, 230-243: word number `k` (from zero). -/
def token : Nat → List Char → Option (List Char)
  | 0, s => (word s).map (·.1)
  | k + 1, s => (word s).bind fun r => token k r.2

/-- read-ard-hl.c:181-213 `product_ard`; `none`: FAILURE. -/
def productArd (bname : List Char) : Option (List Char) := token 3 bname

/-- read-ard-hl.c:223-260 `sensor_ard`: number of the sensor; `none`: FAILURE. -/
def sensorArd (sensors : List (List Char)) (bname : List Char) : Option Nat :=
  (token 2 bname).bind fun s => if Str.vectorContainsPos sensors s < 0 then none else some (Str.vectorContainsPos sensors s).toNat

/-- The request: `PRODUCT_TYPE_MAIN`, `SENSORS`, `DATE_RANGE`, `DATE_IGNORE_LANDSAT_7`, and the days of the year. -/
structure Request where
  product : List Char
  sensors : List (List Char)
  first : Date.DateT
  last : Date.DateT
  ignore : Date.DateT
  days : Int → Bool

/-- read-ard-hl.c:356-360. -/
def extensions : List (List Char) := [".dat".toList, ".bsq".toList, ".bil".toList, ".tif".toList, ".vrt".toList]

/-- read-ard-hl.c:354-393: is a directory entry used? `before`: the record of the date before the call. -/
def judge (r : Request) (before : Date.DateT) (name : List Char) : Out Bool :=
  (Str.extension name 1024).bind fun e =>
    if e.1 ∉ extensions then .ok false
    else if strstr name r.product = none then .ok false
    else if r.sensors.all (fun s => decide (strstr name s = none)) then .ok false
    else match Date.dateFromString before name with
      | .success d => .ok (Season.keepImage r.first r.last r.ignore r.days d (decide (strstr name "LND07".toList ≠ none)))
      | .cancel _ => .exit
      | .exit => .exit
      | .ub => .ub

/-- read-ard-hl.c:352-395: all entries of the directory, in alphabetical order. -/
def listing (r : Request) (before : Date.DateT) : List (List Char) → Out (List (List Char))
  | [] => .ok []
  | n :: ns => (judge r before n).bind fun b => (listing r before ns).bind fun l => .ok (if b then n :: l else l)

/-- read-ard-hl.c:323-411 `list_ard`; `none`: FAILURE (there is nothing to do). -/
def listArd (r : Request) (before : Date.DateT) (entries : List (List Char)) : Out (Option (List (List Char))) :=
  (listing r before entries).bind fun l => .ok (if l.length < 1 then none else some l)

/-- read-ard-hl.c:1013-1025: what `read_chunk` finds out about a file of Level 2 data from its name: product and sensor. -/
def identify (sensors : List (List Char)) (before : Date.DateT) (bname : List Char) : Out (List Char × Nat) :=
  match Date.dateFromString before bname with
  | .success _ =>
    match productArd bname with
    | none => .exit
    | some p => match sensorArd sensors bname with
      | none => .exit
      | some s => .ok (p, s)
  | .cancel _ => .exit
  | .exit => .exit
  | .ub => .ub

/-- read-ard-hl.c:807-815: the files that are read, with the numbers of their sensors. -/
def identifyAll (sensors : List (List Char)) (before : Date.DateT) : List (List Char) → Out (List (List Char × Nat))
  | [] => .ok []
  | n :: ns => (identify sensors before n).bind fun p => (identifyAll sensors before ns).bind fun l => .ok ((n, p.2) :: l)

/-- read-ard-hl.c:771-935: selection of the files; no file is not an error. -/
def selected (r : Request) (before : Date.DateT) (entries : List (List Char)) : Out (List (List Char × Nat)) :=
  (listArd r before entries).bind fun l => match l with
    | none => .ok []
    | some l => identifyAll r.sensors before l

/-- read-ard-hl.c:831-832, 880-881: the name of another product of the same image. -/
def companion (name main other : List Char) : Out (List Char) :=
  (Str.replaceString (name ++ List.replicate (1024 - name.length) Str.nul) main other 1024).bind fun b => .ok (Str.cstr b)

/-! ## Errors -/

/-- param-hl.c:1015-1020 and `PRODUCT_TYPE_QUALITY = NULL`: what is read. -/
structure Plan where
  ref : Bool
  qai : Bool
  aux : Bool
  noQuality : Bool

/-- Can the products of an image be read? -/
structure Files where
  ref : Bool
  qai : Bool
  aux : List Bool

/-- read-ard-hl.c:810-900: one image; `err`: `error` of the thread. Result: `error`, and whether main product, quality and auxiliary products are there. -/
def readOne (p : Plan) (f : Files) (err : Nat) : Out (Nat × Bool × Bool × Bool) :=
  let main := p.ref && decide (err = 0)
  if main && !f.ref then .ok (err + 1, false, false, false)
  else
    if p.qai && decide (err = 0) then
      if p.noQuality then
        if !main then .ub
        else .ok (aux main true)
      else if !f.qai then .ok (err + 1, main, false, false)
      else .ok (aux main true)
    else .ok (aux main false)
where
  aux (main qai : Bool) : Nat × Bool × Bool × Bool :=
    if p.aux && decide (err = 0) then
      if !main then (err + 1, main, qai, false)
      else (err + (f.aux.filter fun ok => !ok).length, main, qai, true)
    else (err, main, qai, false)

/-- read-ard-hl.c:807-902: the images of one thread, one after the other. -/
def readThread (p : Plan) : List Files → Nat → Out (Nat × List (Bool × Bool × Bool))
  | [], err => .ok (err, [])
  | f :: fs, err => (readOne p f err).bind fun r => (readThread p fs r.1).bind fun s => .ok (s.1, r.2 :: s.2)

/-- read-ard-hl.c:804-911: all threads; the errors are added. -/
def readAll (p : Plan) : List (List Files) → Out (Nat × List (Bool × Bool × Bool))
  | [] => .ok (0, [])
  | t :: ts => (readThread p t 0).bind fun r => (readAll p ts).bind fun s => .ok (r.1 + s.1, r.2 ++ s.2)

/-! ## Masks, features -/

/-- read-ard-hl.c:534-548: the mask afterwards; `none`: the chunk is skipped. -/
def readMask (m : List Int) : Option (List Int) :=
  if (m.filter fun v => decide (v = 1)).length = 0 then none else some (m.map fun v => if v = 1 then 1 else 0)

/-- read-ard-hl.c:845-856: quality of a pixel, if there is no quality product; the values of its bands are given. -/
def quality (bands : List Int) : BitVec 16 := bands.foldl (fun q v => if v = -9999 then Qai.set .off q 1 else q) 0

/-- read-ard-hl.c:634-636: quality of a pixel of a feature. -/
def featureQuality (nodata v : Int) : BitVec 16 := if v = nodata then Qai.set .off 0 1 else 0

/-! ## Gaussian kernel -/

noncomputable section

/-- imagefuns-cl.c:47-51: `diff` after a step. -/
def halfExcess (r σ : ℝ) : ℝ :=
  let sig := σ * σ * 2
  let amp := 1 / (Real.pi * sig)
  amp / 2 - amp * Real.exp (-((r / 2) * (r / 2)) / sig)

/-- imagefuns-cl.c:41-53: the loop; `none`: the fuel did not suffice. -/
def sigmaLoop (r : ℝ) : Nat → ℝ → Option ℝ
  | 0, _ => none
  | fuel + 1, σ => if halfExcess r (σ + 1 / 100) > 0 then sigmaLoop r fuel (σ + 1 / 100) else some (σ + 1 / 100)

/-- imagefuns-cl.c:36-58 `find_sigma`. -/
def findSigma (r : ℝ) (fuel : Nat) : Option ℝ := (sigmaLoop r fuel 0).map fun σ => σ - 1 / 100

/-- imagefuns-cl.c:68-95 `gauss_kernel`: weight at row `i`, column `j`; the width `nk` is odd, so that (nk-1)/2 is exact. -/
def gauss (nk : Nat) (σ : ℝ) (i j : Nat) : ℝ :=
  let hx : ℝ := (((-(((nk : Int) - 1) / 2) + j : Int)) : ℝ)
  let hy : ℝ := (((-(((nk : Int) - 1) / 2) + i : Int)) : ℝ)
  1 / (Real.pi * (σ * σ * 2)) * Real.exp (-(hx * hx + hy * hy) / (σ * σ * 2))

/-! ## Aggregation -/

/-- read-ard-hl.c:73: width of the kernel; `r`: ratio of the resolutions. -/
def kernelWidth (r : ℝ) : Nat := if ⌊r * 2⌋₊ % 2 = 0 then ⌊r * 2⌋₊ + 1 else ⌊r * 2⌋₊

/-- An image: row, column. -/
abbrev Img := Int → Int → Int

/-- The pixels of the window, read-ard-hl.c:97-101: position of the kernel and of the pixel. -/
def window (nk nx ny : Nat) (i j : Int) : List ((Nat × Nat) × (Int × Int)) :=
  ((List.range nk).flatMap fun (ii : Nat) => (List.range nk).map fun (jj : Nat) =>
    ((ii, jj), ((-(((nk : Int) - 1) / 2) + (ii : Int) + i, -(((nk : Int) - 1) / 2) + (jj : Int) + j) : Int × Int))).filter fun w =>
      decide (0 ≤ w.2.1 ∧ w.2.1 < ny ∧ 0 ≤ w.2.2 ∧ w.2.2 < nx)

/-- read-ard-hl.c:91-112: the convolved image (as reflectance, divided by 10000); `k`: the kernel. -/
def smooth (k : Nat → Nat → ℝ) (nk nx ny : Nat) (hr : Img) (nodata : Int) (i j : Int) : ℝ :=
  if hr i j = nodata then (nodata : ℝ)
  else
    let w := (window nk nx ny i j).filter fun w => decide (hr w.2.1 w.2.2 ≠ nodata)
    let num := (w.map fun w => k w.1.1 w.1.2).sum
    let sum := (w.map fun w => ((hr w.2.1 w.2.2 : Int) : ℝ) / 10000 * k w.1.1 w.1.2).sum
    if num > 0 then sum / num else (nodata : ℝ)

/-- read-ard-hl.c:147-152 (in one direction): contribution of pixel `n` to the coarse pixel `i`. -/
def share (r : ℝ) (i n : Int) : ℝ := min (((n : ℝ) + 1) / r - i) 1 - max ((n : ℝ) / r - i) 0

/-- read-ard-hl.c:135-142: the fine pixels that are looked at for the coarse pixel `(i, j)`. -/
def covered (r : ℝ) (nx ny : Nat) (i j : Int) : List (Int × Int) :=
  ((List.range ⌈r⌉₊).flatMap fun (ii : Nat) => (List.range ⌈r⌉₊).map fun (jj : Nat) => (⌊(i : ℝ) * r⌋ + (ii : Int), ⌊(j : ℝ) * r⌋ + (jj : Int))).filter
    fun p => !(decide (p.1 ≥ ny) || decide (p.2 ≥ nx))

open scoped Classical in
/-- read-ard-hl.c:144: the pixels that are not missing. -/
def present (g : Int → Int → ℝ) (nodata : Int) (ps : List (Int × Int)) : List (Int × Int) := ps.filter fun p => decide (g p.1 p.2 ≠ (nodata : ℝ))

/-- read-ard-hl.c:162: conversion to `short`: the integer part; undefined outside of 16 bits. -/
def shortOf (v : ℝ) : Out Int :=
  let t := if 0 ≤ v then ⌊v⌋ else ⌈v⌉
  if -32768 ≤ t ∧ t ≤ 32767 then .ok t else .ub

/-- read-ard-hl.c:131-162: one coarse pixel; `g`: convolved image. -/
def coarse (r : ℝ) (nx ny : Nat) (g : Int → Int → ℝ) (nodata : Int) (i j : Int) : Out Int :=
  let ps := present g nodata (covered r nx ny i j)
  let num := (ps.map fun p => share r i p.1 * share r j p.2).sum
  let sum := (ps.map fun p => g p.1 p.2 * (share r i p.1 * share r j p.2)).sum
  if num > 0 then shortOf (sum / num * 10000)
  else .ok nodata

/-- read-ard-hl.c:58-172 `reduce_psf`; the fuel is for `find_sigma`. -/
def reducePsf (nx ny NX : Nat) (hr : Img) (nodata : Int) (fuel : Nat) (i j : Int) : Option (Out Int) :=
  let r : ℝ := (nx : ℝ) / NX
  (findSigma r fuel).map fun σ =>
    coarse r nx ny (smooth (gauss (kernelWidth r) σ) (kernelWidth r) nx ny hr nodata) nodata i j

end

end Verif.Ard
