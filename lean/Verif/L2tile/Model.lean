import Verif.Tile.Model
import Verif.Qai.Model
import Mathlib.Data.Rat.Floor

/-!
# Model of the tiling of Level 2 products

`tile_level2` and `start_datacube` of `src/modules/lower-level/cube-ll.c`. Simplifications: exact arithmetic (`offset`; the
rounding of the division is treated by `FloatOffset`); an image is a function of band, row and column; `write_brick` is not
part of this model (see Brick), a written tile is a value; failures of memory and of the bricks are left out.
-/

namespace Verif.L2tile

open Verif.Tile (Cube Extent loopRange tileAllowlisted)

/-- One product of `LEVEL2`. -/
structure Product where
  /-- `get_brick_ncols`, `get_brick_nrows`, `get_brick_res`, `get_brick_nbands` -/
  nx : ℤ
  ny : ℤ
  res : ℚ
  nb : Nat
  nodata : Nat → ℤ
  /-- band, row, column -/
  value : Nat → ℤ → ℤ → ℤ

/-- The Level 2 dataset: the upper left corner of the quality product, the quality product, the other products. -/
structure Dataset where
  ulx : ℚ
  uly : ℚ
  qai : Product
  others : List Product

/-- cube-ll.c:128-129: `floor((tulx-ulx)/res)`. -/
def offset (d res : ℚ) : ℤ := ⌊d / res⌋

/-- cube-ll.c:107-108: the upper left corner of a tile. -/
def tulx (c : Cube) (tx : ℤ) : ℚ := c.originX + tx * c.tileSizeX
def tuly (c : Cube) (ty : ℤ) : ℚ := c.originY - ty * c.tileSizeY

/-- The number of columns and rows of a tile in the resolution of a product, cube-ll.c:93-94, 123-124; `cols` is
`dim_tile_pixels.cols`. -/
def dim (c : Cube) (cols : ℤ) (res : ℚ) : ℤ := ⌊cols * (c.resolution / res)⌋

/-- cube-ll.c:138-154: band `b` at row `i` and column `j` of the tile. -/
def chip (p : Product) (istart jstart : ℤ) (b : Nat) (i j : ℤ) : ℤ :=
  if i + istart < 0 ∨ i + istart ≥ p.ny ∨ j + jstart < 0 ∨ j + jstart ≥ p.nx then p.nodata b
  else p.value b (i + istart) (j + jstart)

/-- The quality flags of a pixel. -/
def flags (v : ℤ) : BitVec 16 := BitVec.ofInt 16 v

/-- `ncld` and `ndata`, cube-ll.c:63, 111. -/
structure Count where
  ncld : Nat
  ndata : Nat

/-- cube-ll.c:151-165: one pixel of the quality product. -/
def countPixel (p : Product) (istart jstart : ℤ) (n : Count) (ij : ℤ × ℤ) : Count :=
  if ij.1 + istart < 0 ∨ ij.1 + istart ≥ p.ny ∨ ij.2 + jstart < 0 ∨ ij.2 + jstart ≥ p.nx then n
  else
    let v := flags (chip p istart jstart 0 ij.1 ij.2)
    if Qai.get .off v ≠ 0 then n
    else { ncld := if Qai.get .cld v > 0 ∨ Qai.get .shd v ≠ 0 then n.ncld + 1 else n.ncld, ndata := n.ndata + 1 }

/-- The loops over the rows and columns of a tile, cube-ll.c:145-146. -/
def pixels (rows cols : ℤ) : List (ℤ × ℤ) :=
  (loopRange 0 (rows - 1)).flatMap fun i => (loopRange 0 (cols - 1)).map fun j => (i, j)

/-- cube-ll.c:145-168 for the quality product. -/
def count (p : Product) (rows cols istart jstart : ℤ) : Count :=
  (pixels rows cols).foldl (countPixel p istart jstart) ⟨0, 0⟩

/-- One product of a written tile: the corner and resolution of its geotransformation, its size, its data. -/
structure Chip where
  x : ℚ
  y : ℚ
  res : ℚ
  cols : ℤ
  rows : ℤ
  value : Nat → ℤ → ℤ → ℤ

structure Written where
  tx : ℤ
  ty : ℤ
  prods : List Chip

/-- cube-ll.c:114-170 and 186-200: a product of the tile. The geotransformation is the one of the quality product with another
corner (77, 188-189, 196). -/
def cut (c : Cube) (cols rows : ℤ) (d : Dataset) (tx ty : ℤ) (p : Product) : Chip :=
  { x := tulx c tx
    y := tuly c ty
    res := d.qai.res
    cols := dim c cols p.res
    rows := dim c rows p.res
    value := chip p (offset (d.uly - tuly c ty) p.res) (offset (tulx c tx - d.ulx) p.res) }

/-- cube-ll.c:103-204: what is written for one tile. `ndata = 0` is `empty`. -/
def tileOne (c : Cube) (cols rows : ℤ) (allow : List (ℤ × ℤ)) (d : Dataset) (maxtc : ℚ) (tx ty : ℤ) : Option Written :=
  if tileAllowlisted allow tx ty = false then none
  else
    let n := count d.qai (dim c rows d.qai.res) (dim c cols d.qai.res) (offset (d.uly - tuly c ty) d.qai.res)
      (offset (tulx c tx - d.ulx) d.qai.res)
    if n.ndata = 0 then none
    else if (n.ncld : ℚ) / n.ndata * 100 > maxtc then none
    else some { tx := tx, ty := ty, prods := (d.qai :: d.others).map (cut c cols rows d tx ty) }

/-- cube-ll.c:43-227 `tile_level2`: the written tiles. -/
def tileLevel2 (c : Cube) (cols rows : ℤ) (e : Extent) (allow : List (ℤ × ℤ)) (d : Dataset) (maxtc : ℚ) : List Written :=
  (loopRange e.minY e.maxY).flatMap fun ty => (loopRange e.minX e.maxX).filterMap fun tx => tileOne c cols rows allow d maxtc tx ty

/-- cube-ll.c:399-421: one side of the extent (`x` or `y` tile numbers of the four corners). -/
def smallest (a b c d : ℤ) : ℤ := ([a, b, c, d] : List ℤ).foldl (fun m t => if t < m then t else m) 2147483647
def largest (a b c d : ℤ) : ℤ := ([a, b, c, d] : List ℤ).foldl (fun m t => if t > m then t else m) (-2147483648)

/-- cube-ll.c:347-421: the extent of the tiles of an image with upper left corner (`ulx`, `uly`) and the given size; `warp` is
`warp_any_to_any`. -/
def startExtent (c : Cube) (warp : ℚ × ℚ → ℚ × ℚ) (ulx uly width height : ℚ) : Option Extent :=
  let find := fun p : ℚ × ℚ => Tile.tileFind c (warp p).1 (warp p).2
  (find (ulx, uly)).bind fun ul =>
  (find (ulx + width, uly)).bind fun ur =>
  (find (ulx + width, uly - height)).bind fun lr =>
  (find (ulx, uly - height)).bind fun ll =>
  some { minX := smallest ul.idx ur.idx lr.idx ll.idx
         maxX := largest ul.idx ur.idx lr.idx ll.idx
         minY := smallest ul.idy ur.idy lr.idy ll.idy
         maxY := largest ul.idy ur.idy lr.idy ll.idy }

end Verif.L2tile
