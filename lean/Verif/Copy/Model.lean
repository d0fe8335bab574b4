import Mathlib.Data.Rat.Defs
import Verif.Str.Model

/-!
# Images: allocation, copies, number of bands

Models `allocate_brick`, `copy_brick`, `reallocate_brick` and the functions they use in
`src/modules/cross-level/brick_base-cl.c`. `F` are the GDAL options (their copy is C138), `D` the dates, `V` the values of
the pixels. `rd` rounds to double.

Simplifications: texts and vectors of texts are lists of characters (`fill_string`, `fill_string_vector` and
`re_alloc_string_vector` are C29 and C31; no text of a brick is empty, because `fill_string` ends the program then);
messages are left out; memory does not run out. -/

namespace Verif.Copy
open Verif.Str (Out)

/-- enum-cl.h:87-88, without `_DT_NONE_`. -/
inductive DT where
  | short | small | float | int | ushort
deriving DecidableEq

/-- brick_base-cl.h:78-87: what is stored for one band. -/
structure Band (D : Type) where
  save : Bool
  nodata : Int
  scale : ℚ
  wavelength : ℚ
  unit : List Char
  domain : List Char
  bandname : List Char
  sensor : List Char
  date : D

/-- enum-cl.h:62: the six numbers of the geotransformation. -/
structure Geo where
  ulx : ℚ
  xres : ℚ
  yrot : ℚ
  uly : ℚ
  xrot : ℚ
  yres : ℚ

/-- `dim_t`. -/
structure Dim where
  cols : Int
  rows : Int
  cells : Int

/-- brick_base-cl.h:45-95 `brick_t`; `dtype = none`: `_DT_NONE_`; the data of the one data type that is used. -/
structure Image (F D V : Type) where
  name : List Char
  product : List Char
  dname : List Char
  fname : List Char
  provdir : List Char
  prov : List (List Char)
  sid : Int
  opn : Int
  explode : Int
  dtype : Option DT
  format : F
  nb : Int
  nx : Int
  ny : Int
  nc : Int
  cx : Int
  cy : Int
  cc : Int
  geotran : Geo
  width : ℚ
  height : ℚ
  cwidth : ℚ
  cheight : ℚ
  chunkX : Int
  chunkY : Int
  dimChunk : Dim
  tileX : Int
  tileY : Int
  proj : List Char
  par : List Char
  bands : List (Band D)
  data : List (List V)

section
variable {F D V : Type} (rd : ℚ → ℚ)

/-- brick_base-cl.c:594-611 `init_brick_bands`; `d0`: `init_date`. -/
def initBand (d0 : D) : Band D := ⟨false, 0, 0, 0, "NA".toList, "NA".toList, "NA".toList, "NA".toList, d0⟩

/-- brick_base-cl.c:46-85 `allocate_brick` with `init_brick` (527-586) and `allocate_brick_bands` (248-288); `none`: NULL.
`fmt0`: the default options of GTiff. -/
def allocate (fmt0 : F) (d0 : D) (zero : V) (nb nc : Int) (dtype : Option DT) : Option (Image F D V) :=
  if nb < 1 then none
  else if nc < 1 ∧ dtype ≠ none then none
  else some {
    name := "NA".toList, product := "NA".toList, dname := "NA".toList, fname := "NA".toList, provdir := "NA".toList
    prov := [], sid := -1, opn := 0, explode := 0, dtype := dtype, format := fmt0
    nb := nb, nx := 0, ny := 0, nc := 0, cx := 0, cy := 0, cc := 0, geotran := ⟨0, 0, 0, 0, 0, 0⟩
    width := 0, height := 0, cwidth := 0, cheight := 0, chunkX := -1, chunkY := -1, dimChunk := ⟨0, 0, 0⟩
    tileX := 0, tileY := 0, proj := "NA".toList, par := "NA".toList
    bands := List.replicate nb.toNat (initBand d0)
    data := if dtype = none then [] else List.replicate nb.toNat (List.replicate nc.toNat zero) }

/-- brick_base-cl.c:1205-1214 `set_brick_ncols`. -/
def setNcols (s : Image F D V) (nx : Int) : Image F D V :=
  { s with nx := nx, nc := nx * s.ny, width := rd (nx * s.geotran.xres) }

/-- brick_base-cl.c:1232-1241 `set_brick_nrows`. -/
def setNrows (s : Image F D V) (ny : Int) : Image F D V :=
  { s with ny := ny, nc := s.nx * ny, height := rd (ny * s.geotran.xres) }

/-- brick_base-cl.c:1302-1311 `set_brick_chunkncols`. -/
def setChunkNcols (s : Image F D V) (cx : Int) : Image F D V :=
  { s with cx := cx, cc := cx * s.cy, cwidth := rd (cx * s.geotran.xres) }

/-- brick_base-cl.c:1329-1338 `set_brick_chunknrows`. -/
def setChunkNrows (s : Image F D V) (cy : Int) : Image F D V :=
  { s with cy := cy, cc := s.cx * cy, cheight := rd (cy * s.geotran.xres) }

/-- brick_base-cl.c:1784-1791, 1809-1816 `set_brick_chunkwidth`, `set_brick_chunkheight`: the argument is not used. -/
def setChunkExtent (s : Image F D V) : Image F D V :=
  { s with cwidth := rd (s.cx * s.geotran.xres), cheight := rd (s.cy * s.geotran.xres) }

/-- brick_base-cl.c:153-157, 159: the texts and the sensor. -/
def copyNames (s f : Image F D V) : Image F D V :=
  { s with name := f.name, product := f.product, dname := f.dname, fname := f.fname, sid := f.sid, provdir := f.provdir }

/-- brick_base-cl.c:165-183: position and size, in the order of the code. -/
def copyPlace (s f : Image F D V) (nb : Int) : Image F D V :=
  let s := { s with geotran := f.geotran, nb := nb }
  let s := setNrows rd (setNcols rd s f.nx) f.ny
  let s := setChunkNrows rd (setChunkNcols rd s f.cx) f.cy
  let s := setChunkExtent rd s
  let s := { s with dimChunk := f.dimChunk, chunkX := f.chunkX, chunkY := f.chunkY, tileX := f.tileX, tileY := f.tileY }
  let s := { s with proj := f.proj, par := f.par }
  { s with format := f.format, opn := f.opn, explode := f.explode }

/-- brick_base-cl.c:336-350 `copy_brick_band`, `.ub` if one of the bands does not exist. -/
def copyBand (s : List (Band D)) (b : Nat) (from_ : List (Band D)) (bFrom : Nat) : Out (List (Band D)) :=
  match from_[bFrom]? with
  | none => .ub
  | some x => if b < s.length then .ok (s.set b x) else .ub

/-- One pass of brick_base-cl.c:186-188 and 125, for the bands `bs`; `src b`: the source of band `b`. -/
def copyBands (from_ : List (Band D)) (src : Nat → Nat) : List Nat → List (Band D) → Out (List (Band D))
  | [], s => .ok s
  | b :: bs, s => (copyBand s b from_ (src b)).bind fun s => copyBands from_ src bs s

/-- brick_base-cl.c:142-192 `copy_brick`; `.ok none`: NULL. A brick without provenance ends the program in
`alloc_string_vector` (978, string-cl.c:393-396). -/
def copy (fmt0 : F) (d0 : D) (zero : V) (f : Image F D V) (nb : Int) (dtype : Option DT) :
    Out (Option (Image F D V)) :=
  match allocate fmt0 d0 zero nb (if f.chunkX < 0 ∨ f.chunkY < 0 then f.nc else f.cc) dtype with
  | none => .ok none
  | some s =>
    if f.prov.length = 0 then .exit
    else
      let s := copyPlace rd { copyNames s f with prov := f.prov } f nb
      (copyBands f.bands (fun b => if nb = f.nb then b else 0) (List.range nb.toNat) s.bands).bind fun bands =>
        .ok (some { s with bands := bands })

/-- alloc-cl.c:126-142 `re_alloc`: what is new is zero. -/
def zeroBand (dz : D) : Band D := ⟨false, 0, 0, 0, [], [], [], [], dz⟩

/-- brick_base-cl.c:93-133 `reallocate_brick` with `reallocate_brick_bands` (296-326): the number of cells that is passed
is that of the whole image, the rows that exist are left as they are; `dz`: a date of zeros; `.ok none`: FAILURE. -/
def reallocate (dz : D) (zero : V) (s : Image F D V) (nb : Int) : Out (Option (Image F D V)) :=
  if nb = s.nb then .ok (some s)
  else if nb < 1 then .ok none
  else if s.nc < 1 then .ok none
  else if s.dtype = none then .ok none
  else
    let n0 := s.nb.toNat
    let n := nb.toNat
    let bands := s.bands.take n ++ List.replicate (n - n0) (zeroBand dz)
    let data := s.data.take n ++ List.replicate (n - n0) (List.replicate s.nc.toNat zero)
    (if nb > s.nb then copyBands bands (fun _ => 0) (List.range' n0 (n - n0)) bands else .ok bands).bind fun bands =>
      .ok (some { s with bands := bands, data := data, nb := nb })

/-- brick_base-cl.c:807-818 `find_domain`, from band `b` on. -/
def findDomain (domain : List Char) : List (Band D) → Int → Int
  | [], _ => -1
  | x :: xs, b => if x.domain = domain then b else findDomain domain xs (b + 1)

end
end Verif.Copy
