import Verif.Str.Model

/-!
# User-defined functions in Python and R

Model of py-udf-hl.c and r-udf-hl.c: the images of a block are copied into an array that is passed to
user code, and the result is copied into the output bands. Arrays are flat lists: numpy arrays in C
order (last index fastest), R arrays in column-major order (first index fastest). User code is a
parameter; `none` is an error in user code.
-/

namespace Verif.Udf

open Verif.Str

/-- An image: data bands, auxiliary bands and usability of its pixels (`ard_t`). -/
structure Img where
  dat : Nat → Nat → Int
  aux : Nat → Nat → Int
  msk : Nat → Bool

/-- Dimensions of the block, and of the result. -/
structure Dim where
  nt : Nat
  nbMain : Nat
  nbAux : Nat
  ny : Nat
  nx : Nat
  nband : Nat

/-- Number of input bands. -/
def Dim.nb (d : Dim) : Nat := d.nbMain + d.nbAux

/-- Number of pixels. -/
def Dim.nc (d : Dim) : Nat := d.ny * d.nx

/-! ## Python -/

/-- py-udf-hl.c:519-527: value of an image in the UDF submodule. -/
def pyValue (ims : Nat → Img) (d : Dim) (nodata : Int) (t b p : Nat) : Int :=
  if (ims t).msk p = false then nodata
  else if b < d.nbMain then (ims t).dat b p else (ims t).aux (b - d.nbMain) p

/-- py-udf-hl.c:516-530: all values in the order in which they are copied. -/
def pyArray (ims : Nat → Img) (d : Dim) (nodata : Int) : List Int :=
  (List.range d.nt).flatMap fun t => (List.range d.nb).flatMap fun b => (List.range d.nc).map fun p =>
    pyValue ims d nodata t b p

/-- py-udf-hl.c:534-537: the time series submodule, with one band. -/
def pyArrayTsa (tsi : Nat → Nat → Int) (d : Dim) : List Int :=
  (List.range d.nt).flatMap fun t => (List.range d.nc).map fun p => tsi t p

/-- py-udf-hl.c:142 `ichunk[:, :, yi:yi+1, xi:xi+1]`: time steps and bands of a pixel. -/
def pyPixelIn (d : Dim) (arr : List Int) (y x : Nat) : List (List Int) :=
  (List.range d.nt).map fun t => (List.range d.nb).map fun b => arr.getD (((t * d.nb + b) * d.ny + y) * d.nx + x) 0

/-- py-udf-hl.c:96-101 `forcepy_wrapper`: user code writes into an array of `nband` values that are
nodata before. -/
def pyWrap (f : List (List Int) → Option (List Int)) (d : Dim) (nodata : Int) (a : List (List Int)) : Option (List Int) :=
  (f a).map fun r => (List.range d.nband).map fun b => r.getD b nodata

/-- py-udf-hl.c:129-158 `forcepy_` with a function for pixels; an error in user code gives `None`. The
results of the pixels have the order of the calls. -/
def pyPixel (f : List (List Int) → Option (List Int)) (d : Dim) (nodata : Int) (arr : List Int) : Option (List Int) :=
  match ((List.range d.ny).flatMap fun y => (List.range d.nx).map fun x => pyPixelIn d arr y x).mapM (pyWrap f d nodata) with
  | none => none
  | some res => some ((List.range d.nband).flatMap fun b => (List.range d.ny).flatMap fun y =>
      (List.range d.nx).map fun x => (res.getD (y * d.nx + x) []).getD b nodata)

/-- py-udf-hl.c:159-173 `forcepy_` with a function for the chunk: user code writes into an array with
`nband` bands, rows and columns that is nodata before. -/
def pyChunk (g : List Int → Option (List Int)) (d : Dim) (nodata : Int) (arr : List Int) : Option (List Int) :=
  (g arr).map fun r => (List.range (d.nband * (d.ny * d.nx))).map fun i => r.getD i nodata

/-- py-udf-hl.c:557-577: `None` ends the program, otherwise the bands are copied one after the other. -/
def pyOut (d : Dim) (r : Option (List Int)) : Out (Nat → Nat → Int) :=
  match r with
  | none => .exit
  | some l => if d.nband * d.nc ≤ l.length then .ok fun b p => l.getD (b * d.nc + p) 0 else .ub

/-- The Python UDF of the UDF submodule, for pixels (py-udf-hl.c:465-606); the processing mask is a
parameter that is not used. -/
def pyRunPixel (f : List (List Int) → Option (List Int)) (ims : Nat → Img) (d : Dim) (nodata : Int)
    (_mask : Nat → Bool) : Out (Nat → Nat → Int) :=
  pyOut d (pyPixel f d nodata (pyArray ims d nodata))

/-- The same for chunks. -/
def pyRunChunk (g : List Int → Option (List Int)) (ims : Nat → Img) (d : Dim) (nodata : Int)
    (_mask : Nat → Bool) : Out (Nat → Nat → Int) :=
  pyOut d (pyChunk g d nodata (pyArray ims d nodata))

/-! ## R -/

/-- r-udf-hl.c:509-520: value of an image inside the mask. -/
def rValue (ims : Nat → Img) (d : Dim) (nodata : Int) (t b p : Nat) : Int :=
  if (ims t).msk p = true then
    if b < d.nbMain then (ims t).dat b p else (ims t).aux (b - d.nbMain) p
  else nodata

/-- Values of a pixel in the order in which they are copied (r-udf-hl.c:506-528). -/
def rPixelValues (v : Nat → Nat → Nat → Int) (d : Dim) (p : Nat) : List Int :=
  (List.range d.nb).flatMap fun b => (List.range d.nt).map fun t => v t b p

/-- r-udf-hl.c:503-529 for pixels: pixels outside of the mask are left out. -/
def rArrayPixel (ims : Nat → Img) (d : Dim) (nodata : Int) (mask : Nat → Bool) : List Int :=
  (List.range d.nc).flatMap fun p => if mask p = false then [] else rPixelValues (rValue ims d nodata) d p

/-- r-udf-hl.c:503-529 for chunks: pixels outside of the mask are nodata. -/
def rArrayChunk (ims : Nat → Img) (d : Dim) (nodata : Int) (mask : Nat → Bool) : List Int :=
  (List.range d.nc).flatMap fun p =>
    rPixelValues (fun t b p => if mask p = false then nodata else rValue ims d nodata t b p) d p

/-- `array == na_value` becomes `NA` (r-udf-hl.c:162, 184). -/
def toNA (nodata : Int) (l : List Int) : List (Option Int) := l.map fun v => if v = nodata then none else some v

/-- `NA` becomes nodata (r-udf-hl.c:170, 186). -/
def fromNA (nodata : Int) (l : List (Option Int)) : List Int := l.map fun v => v.getD nodata

/-- `apply(array, 3, ...)`: the `j`-th matrix of an array with `nt` rows and `nb` columns. -/
def slice (d : Dim) (arr : List (Option Int)) (j : Nat) : List (List (Option Int)) :=
  (List.range d.nt).map fun t => (List.range d.nb).map fun b => arr.getD (t + d.nt * (b + d.nb * j)) none

/-- r-udf-hl.c:158-174: the function for pixels is applied to all matrices. If the results have
different lengths, R returns a list, not a vector. Without any pixel the result is empty (R calls the
function once more with an empty matrix, which is not modelled). -/
def rPixel (f : List (List (Option Int)) → Option (List (Option Int))) (d : Dim) (nodata : Int) (n : Nat)
    (arr : List Int) : Option (List Int) :=
  match ((List.range n).map fun j => slice d (toNA nodata arr) j).mapM f with
  | none => none
  | some res =>
    match res with
    | [] => some []
    | r :: _ => if res.all (fun x => x.length = r.length) = true then some (fromNA nodata res.flatten) else none

/-- r-udf-hl.c:180-190: the function for chunks. -/
def rChunk (g : List (Option Int) → Option (List (Option Int))) (nodata : Int) (arr : List Int) : Option (List Int) :=
  (g (toNA nodata arr)).map (fromNA nodata)

/-- r-udf-hl.c:538-558: values are taken from the result for the pixels that were passed, `none` is an
access behind its end; one list of bands per pixel. -/
def rRead (keep : Nat → Bool) (nodata : Int) (nband : Nat) : List Nat → List Int → Option (List (List Int))
  | [], _ => some []
  | p :: ps, l =>
    if keep p = true then
      if l.length < nband then none
      else (rRead keep nodata nband ps (l.drop nband)).map fun r => l.take nband :: r
    else (rRead keep nodata nband ps l).map fun r => List.replicate nband nodata :: r

/-- r-udf-hl.c:532-558: without result (`R_tryEval` returns a null pointer) or behind its end memory is
accessed that is not there. -/
def rOut (keep : Nat → Bool) (d : Dim) (nodata : Int) (r : Option (List Int)) : Out (Nat → Nat → Int) :=
  match r with
  | none => .ub
  | some l =>
    match rRead keep nodata d.nband (List.range d.nc) l with
    | none => .ub
    | some o => .ok fun b p => (o.getD p []).getD b nodata

/-- The R UDF of the UDF submodule, for pixels. -/
def rRunPixel (f : List (List (Option Int)) → Option (List (Option Int))) (ims : Nat → Img) (d : Dim) (nodata : Int)
    (mask : Nat → Bool) : Out (Nat → Nat → Int) :=
  rOut mask d nodata (rPixel f d nodata ((List.range d.nc).countP mask) (rArrayPixel ims d nodata mask))

/-- The same for chunks. -/
def rRunChunk (g : List (Option Int) → Option (List (Option Int))) (ims : Nat → Img) (d : Dim) (nodata : Int)
    (mask : Nat → Bool) : Out (Nat → Nat → Int) :=
  rOut (fun _ => true) d nodata (rChunk g nodata (rArrayChunk ims d nodata mask))

end Verif.Udf
