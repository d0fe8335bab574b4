import Verif.Tile.Model

/-!
# Specification of the tiling scheme

Tile `(i, j)` is the `i`-th tile to the right of, and the `j`-th tile below the origin.
-/

namespace Verif.Tile.Spec

/-- x coordinate of the left edge of tile column `i`. -/
def left (c : Cube) (i : ℤ) : ℚ := c.originX + i * c.tileSizeX

/-- y coordinate of the upper edge of tile row `j`. -/
def top (c : Cube) (j : ℤ) : ℚ := c.originY - j * c.tileSizeY

/-- The point lies in tile `(i, j)`, edges included. -/
def InTile (c : Cube) (i j : ℤ) (x y : ℚ) : Prop :=
  (left c i ≤ x ∧ x ≤ left c (i + 1)) ∧ (top c (j + 1) ≤ y ∧ y ≤ top c j)

/-- The point lies in the interior of tile `(i, j)`. -/
def Inside (c : Cube) (i j : ℤ) (x y : ℚ) : Prop :=
  (left c i < x ∧ x < left c (i + 1)) ∧ (top c (j + 1) < y ∧ y < top c j)

/-- Tile `(x, y)` is part of the processing extent. -/
def InExtent (e : Extent) (x y : ℤ) : Prop :=
  (e.minX ≤ x ∧ x ≤ e.maxX) ∧ (e.minY ≤ y ∧ y ≤ e.maxY)

/-- The tile may be processed: an empty allow-list allows everything. -/
def Allowed (allow : List (ℤ × ℤ)) (x y : ℤ) : Prop := allow = [] ∨ (x, y) ∈ allow

/-- Row by row: `a` comes before `b`. -/
def Before (a b : ℤ × ℤ) : Prop := a.2 < b.2 ∨ (a.2 = b.2 ∧ a.1 < b.1)

/-- The tile id as it is written in file names and allow-lists, `X%04d_Y%04d`. -/
def tileName (t : ℤ × ℤ) : List Char :=
  'X' :: (Libc.fmtInt0 4 t.1 ++ '_' :: 'Y' :: Libc.fmtInt0 4 t.2)

/-- An allow-list file: the number of tiles, then one tile per line. -/
def allowFile (count : List Char) (tiles : List (ℤ × ℤ)) : List Char :=
  count ++ '\n' :: (tiles.flatMap fun t => tileName t ++ ['\n'])

/-- The point is a pixel corner of the datacube's grid. -/
def OnGrid (c : Cube) (x y : ℚ) : Prop :=
  (∃ k : ℤ, x = c.originX + k * c.resolution) ∧ (∃ k : ℤ, y = c.originY - k * c.resolution)

/-- Tiles consist of whole pixels (guaranteed by `update_datacube_res`). -/
def WholePixels (c : Cube) : Prop :=
  (∃ m : ℤ, c.tileSizeX = m * c.resolution) ∧ (∃ m : ℤ, c.tileSizeY = m * c.resolution)

end Verif.Tile.Spec
