import Verif.L2tile.Model
import Verif.Index.Model

/-!
# Model of the checks of the grid, and of the selection of continental datacubes

`start_datacube` (cube-ll.c), `update_datacube_res` (cube-cl.c), `chunk_layout` (progress-hl.c), `start_equi7cube` (equi7-ll.c),
`start_glance7cube` (glance7-ll.c), and the loop over the datacubes in `force-l2ps.c`. Simplifications: the extents of the image in
the projections of the continents and the reprojected datasets are given (`startExtent`, C105, is the same code); creating
directories, projection files and the dictionary is left out; the tolerance is exactly 0.005.
-/

namespace Verif.L2tile

open Verif.Tile (Cube Extent loopRange)
open Verif.Index (truncQ)

/-- `fmod` of C: exact, the quotient is truncated. -/
def fmod (a b : ℚ) : ℚ := a - truncQ (a / b) * b

/-- cube-ll.c:324-333, cube-cl.c:215-227, equi7-ll.c and glance7-ll.c alike: the number of columns and rows of a tile, none if the
tile size is refused. `div` is the division as the machine does it. -/
def gridOf (div : ℚ → ℚ → ℚ) (sizeX sizeY res : ℚ) : Option (ℤ × ℤ) :=
  if fmod sizeX res > 5 / 1000 ∨ fmod sizeY res > 5 / 1000 then none
  else some (⌊div sizeX res⌋, ⌊div sizeY res⌋)

/-- progress-hl.c:72-101 `chunk_layout`: the number of columns and rows of chunks, none if the program stops. -/
def chunkLayout (sizeX sizeY chunkX chunkY : ℚ) : Option (ℤ × ℤ) :=
  if truncQ (sizeX / chunkX) < 1 then none
  else if truncQ (sizeY / chunkY) < 1 then none
  else if fmod sizeX chunkX > 5 / 1000 then none
  else if fmod sizeY chunkY > 5 / 1000 then none
  else some (truncQ (sizeX / chunkX), truncQ (sizeY / chunkY))

/-- equi7-ll.c:314-330, glance7-ll.c alike: `cover`, the extent of the image has a tile of the continent. -/
def cover (tiles : List (ℤ × ℤ)) (e : Extent) : Bool :=
  tiles.any fun t => (loopRange e.minX e.maxX).any fun x => (loopRange e.minY e.maxY).any fun y => t.1 = x && t.2 = y

/-- A continental datacube, and the image in its projection. -/
structure Continent where
  name : String
  cube : Cube
  cols : ℤ
  rows : ℤ
  /-- `allowed_tiles`: the tiles of the continent -/
  tiles : List (ℤ × ℤ)
  extent : Extent
  data : Dataset

/-- equi7-ll.c:178-340: the continent gets data: it is asked for by PROJECTION (`all` is `EQUI7` or `GLANCE7`), and the image covers
it, or there is no image (`force-cube-init`). `k.name` stands for `projname7`; for GLANCE7 see Verif.Equi. -/
def used (all proj : String) (image : Bool) (k : Continent) : Bool :=
  if proj ≠ all ∧ proj ≠ k.name then false
  else if image then cover k.tiles k.extent
  else true

/-- force-l2ps.c, the loop over the datacubes with tiling: the written tiles of each continent. `allow` is FILE_TILE. -/
def multi (all proj : String) (allow : List (ℤ × ℤ)) (maxtc : ℚ) (ks : List Continent) : List (String × List Written) :=
  (ks.filter (used all proj true)).map fun k => (k.name, tileLevel2 k.cube k.cols k.rows k.extent allow k.data maxtc)

end Verif.L2tile
