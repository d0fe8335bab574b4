import Verif.L2tile.Model
import Verif.Tile.Spec
import Mathlib.Data.Set.Card

/-! # Specification of the tiling of Level 2 products -/

namespace Verif.L2tile

open Verif.Tile (Cube)
open Verif.Tile.Spec (left top)

/-- The left edge of column `k` and the upper edge of row `r` of a product of the dataset. -/
def Dataset.x (d : Dataset) (p : Product) (k : ℤ) : ℚ := d.ulx + k * p.res
def Dataset.y (d : Dataset) (p : Product) (r : ℤ) : ℚ := d.uly - r * p.res

/-- The left edge of column `j` and the upper edge of row `i` of a written product, according to its geotransformation. -/
def Chip.left (w : Chip) (j : ℤ) : ℚ := w.x + j * w.res
def Chip.top (w : Chip) (i : ℤ) : ℚ := w.y - i * w.res

/-- Row and column are inside of the product. -/
def Product.has (p : Product) (r k : ℤ) : Prop := (0 ≤ r ∧ r < p.ny) ∧ (0 ≤ k ∧ k < p.nx)

/-- Row and column are inside of a written product. -/
def Chip.has (w : Chip) (i j : ℤ) : Prop := (0 ≤ i ∧ i < w.rows) ∧ (0 ≤ j ∧ j < w.cols)

/-- The dataset is on the grid of the datacube, and tiles have `cols` columns and `rows` rows. -/
structure Aligned (c : Cube) (cols rows : ℤ) (d : Dataset) : Prop where
  pos : 0 < c.resolution
  qai : d.qai.res = c.resolution
  x : ∃ k : ℤ, d.ulx = c.originX + k * c.resolution
  y : ∃ k : ℤ, d.uly = c.originY - k * c.resolution
  sizeX : c.tileSizeX = cols * c.resolution
  sizeY : c.tileSizeY = rows * c.resolution
  colsPos : 0 < cols
  rowsPos : 0 < rows

/-- The pixels of the quality product that are in a tile and have data. -/
def Valid (c : Cube) (d : Dataset) (tx ty : ℤ) : Set (ℤ × ℤ) :=
  {q | d.qai.has q.1 q.2 ∧ (left c tx ≤ d.x d.qai q.2 ∧ d.x d.qai q.2 < left c (tx + 1)) ∧
    (top c (ty + 1) < d.y d.qai q.1 ∧ d.y d.qai q.1 ≤ top c ty) ∧ Qai.get .off (flags (d.qai.value 0 q.1 q.2)) = 0}

/-- Those with cloud or cloud shadow. -/
def Cloudy (c : Cube) (d : Dataset) (tx ty : ℤ) : Set (ℤ × ℤ) :=
  {q | q ∈ Valid c d tx ty ∧ (Qai.get .cld (flags (d.qai.value 0 q.1 q.2)) ≠ 0 ∨ Qai.get .shd (flags (d.qai.value 0 q.1 q.2)) ≠ 0)}

end Verif.L2tile
