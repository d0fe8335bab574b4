import Verif.Str.Model
import Verif.Libc.Model

/-!
# Model of the reading of a chunk with the surrounding pixels

`read_chunk` (window of the file) and `add_chunks` of `src/modules/higher-level/read-ard-hl.c`.

Simplifications: all distances are multiples of the resolution and are given in pixels, the images on
disc have this resolution (no resampling, no point spread function); one band is modelled, the others
are treated in the same loops. A window outside of the image is an error of `GDALRasterIO`. The number
of written pixels of an image in memory is not bounded by its size: that the cells are inside is proved.
-/

namespace Verif.Halo

open Verif.Str (strstr)

/-- The tiling in pixels: the size of the chunks, the number of chunks in a tile (`chunk_layout`, 1312-1313),
the pixels to add (`pixels_to_add`, 1305) and the nodata value. -/
structure Grid where
  W : Nat
  H : Nat
  kx : Nat
  ky : Nat
  h : Nat
  nodata : Int

/-- An image on disc: row, column, value. -/
abbrev Img := Nat → Nat → Int

/-- read-ard-hl.c:993-1006: the part of the image that is read: offset in x and y, width and height. `cx`, `cy`
is the chunk, `px`, `py` the signed width and height of the part (0: the whole chunk). -/
def window (g : Grid) (cx cy px py : Int) : Int × Int × Nat × Nat :=
  let x_offset := cx * g.W
  let y_offset := cy * g.H
  (if px < 0 then g.W + px else x_offset,
   if py < 0 then y_offset + g.H + py else y_offset,
   if px = 0 then g.W else px.natAbs,
   if py = 0 then g.H else py.natAbs)

/-- read-ard-hl.c:1179-1183, `GDALRasterIO`: the values of a window of the image, row by row. -/
def rasterIO (g : Grid) (img : Img) (w : Int × Int × Nat × Nat) : Option (Nat → Int) :=
  if w.1 < 0 ∨ w.2.1 < 0 ∨ w.1 + w.2.2.1 > g.kx * g.W ∨ w.2.1 + w.2.2.2 > g.ky * g.H then none
  else some fun p => img (w.2.1.toNat + p / w.2.2.1) (w.1.toNat + p % w.2.2.1)

/-- read-ard-hl.c:958-1261 `read_chunk`: the values of (a part of) a chunk. -/
def readChunk (g : Grid) (img : Img) (cx cy px py : Int) : Option (Nat → Int) :=
  rasterIO g img (window g cx cy px py)

/-- The name of a tile, `"X%04d_Y%04d"` (1341, 1389). -/
def name (t : Int × Int) : List Char :=
  'X' :: (Verif.Libc.fmtInt0 4 t.1 ++ '_' :: 'Y' :: Verif.Libc.fmtInt0 4 t.2)

/-- read-ard-hl.c:1345-1366: the chunk and the tile of a neighbour in one direction: `c` is the central chunk,
`rel` -1, 0 or 1, `k` the number of chunks, `t` the central tile. -/
def neighbour (c rel k t : Int) : Int × Int :=
  if c + rel < 0 then (k - 1, t - 1)
  else if c + rel ≥ k then (0, t + 1)
  else (c + rel, t)

/-- read-ard-hl.c:1387-1389: the first occurrence of the old tile name is overwritten with 11 characters of the
new one. -/
def rename (fname old new : List Char) : Option (List Char) :=
  (strstr fname old).map fun k => fname.take k ++ new.take 11 ++ fname.drop (k + 11)

/-- read-ard-hl.c:1431-1451: number of pixels to insert and their offset in one direction; `n` is the size of the
chunk. -/
def place (h n : Nat) (rel : Int) : Nat × Nat :=
  if rel < 0 then (h, 0)
  else if rel = 0 then (n, h)
  else (h, (n + h * 2) - h)

/-- Assignment to one element. -/
def set (m : Nat → Int) (i : Nat) (v : Int) : Nat → Int := fun j => if j = i then v else m j

/-- read-ard-hl.c:1468-1482: the value to copy. -/
def valueOf (nodata : Int) (src : Option (Nat → Int)) (i : Nat) : Int :=
  match src with
  | none => nodata
  | some s => s i

/-- read-ard-hl.c:1461-1485: the values are copied into the mosaic with `mx` columns; `src` is `none` if there
is no file. -/
def copy (nodata : Int) (mx : Nat) (px py : Nat × Nat) (src : Option (Nat → Int)) (m : Nat → Int) : Nat → Int :=
  (List.range py.1).foldl (fun m row =>
    (List.range px.1).foldl (fun m col =>
      set m ((row + py.2) * mx + col + px.2) (valueOf nodata src (row * px.1 + col))) m) m

/-- The mosaic, the file name and the name of the tile in it. -/
structure St where
  mosaic : Nat → Int
  fname : List Char
  tc : List Char

/-- read-ard-hl.c:1345-1490: one of the nine neighbours (`r` is `chunk_to_add_relative`); `ard` are the values of
the central chunk, `disc` the files. -/
def step (g : Grid) (disc : List Char → Option Img) (chunk tile : Int × Int) (ard : Nat → Int) (st : St)
    (r : Int × Int) : Option St :=
  let nx := neighbour chunk.1 r.1 g.kx tile.1
  let ny := neighbour chunk.2 r.2 g.ky tile.2
  let put := fun src => copy g.nodata (g.W + g.h * 2) (place g.h g.W r.1) (place g.h g.H r.2) src st.mosaic
  if r.2 = 0 ∧ r.1 = 0 then some { st with mosaic := put (some ard) }
  else
    let tn := name (nx.2, ny.2)
    match rename st.fname st.tc tn with
    | none => none
    | some fname =>
      match disc fname with
      | none => some ⟨put none, fname, tn⟩
      | some img =>
        match readChunk g img nx.1 ny.1 (r.1 * g.h) (r.2 * g.h) with
        | none => none
        | some s => some ⟨put (some s), fname, tn⟩

/-- read-ard-hl.c:1341-1342: the order of the neighbours. -/
def relatives : List (Int × Int) :=
  [(-1, -1), (0, -1), (1, -1), (-1, 0), (0, 0), (1, 0), (-1, 1), (0, 1), (1, 1)]

/-- read-ard-hl.c:1284-1501 `add_chunks`. -/
def addChunks (g : Grid) (disc : List Char → Option Img) (file : List Char) (chunk tile : Int × Int)
    (ard : Nat → Int) : Option (Nat → Int) :=
  (relatives.foldlM (step g disc chunk tile ard) ⟨fun _ => 0, file, name tile⟩).map (·.mosaic)

/-- read-ard-hl.c:814-822 (and the other products): the chunk is read, then extended. -/
def readExtended (g : Grid) (disc : List Char → Option Img) (file : List Char) (chunk tile : Int × Int) :
    Option (Nat → Int) :=
  match disc file with
  | none => none
  | some img =>
    match readChunk g img chunk.1 chunk.2 0 0 with
    | none => none
    | some ard => if g.h > 0 then addChunks g disc file chunk tile ard else some ard

end Verif.Halo
