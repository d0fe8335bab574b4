import Mathlib.Algebra.Order.Field.Rat
import Verif.Libc.Model

/-!
# Model of the tiling scheme

`src/modules/cross-level/cube-cl.c` and `src/modules/cross-level/tile-cl.c`.

Simplification: map coordinates (C `double`) are rational numbers; the additions in the
search loops are therefore exact (they are in the program as long as the origin, the
tile size and the coordinates visited are multiples of a common power of two below
2^53). Tile numbers (C `int`) are unbounded integers.

Search loops are partial functions (`partial_fixpoint`): `none` is a loop that does not
terminate.
-/

namespace Verif.Tile

/-- The members of `cube_t` used for tiling, cube-cl.h:48-61. -/
structure Cube where
  /-- `origin_map` -/
  originX : ℚ
  originY : ℚ
  /-- `tile_size[_X_]`, `tile_size[_Y_]` -/
  tileSizeX : ℚ
  tileSizeY : ℚ
  /-- `resolution` -/
  resolution : ℚ
deriving DecidableEq, Repr

/-- cube-cl.c:446-449 and cube-cl.c:485-488: `while (x > tx){ tx += size; px += inc; }`. -/
def shiftUp (x size : ℚ) (inc : ℤ) (tx : ℚ) (px : ℤ) : Option (ℚ × ℤ) :=
  if x > tx then shiftUp x size inc (tx + size) (px + inc) else some (tx, px)
partial_fixpoint

/-- cube-cl.c:458-461 and cube-cl.c:471-474: `while (x < tx){ tx -= size; px += inc; }`. -/
def shiftDown (x size : ℚ) (inc : ℤ) (tx : ℚ) (px : ℤ) : Option (ℚ × ℤ) :=
  if x < tx then shiftDown x size inc (tx - size) (px + inc) else some (tx, px)
partial_fixpoint

/-- cube-cl.c:442-463, the x direction of `tile_find`: (corner, tile number). -/
def findX (origin size x : ℚ) : Option (ℚ × ℤ) :=
  if x > origin then
    (shiftUp x size 1 origin 0).bind fun r => some (r.1 - size, r.2 - 1)
  else if x < origin then
    shiftDown x size (-1) origin 0
  else some (origin, 0)

/-- cube-cl.c:466-489, the y direction of `tile_find`: (corner, tile number). -/
def findY (origin size y : ℚ) : Option (ℚ × ℤ) :=
  if y < origin then
    (shiftDown y size 1 origin 0).bind fun r => some (r.1 + size, r.2 - 1)
  else if y > origin then
    shiftUp y size (-1) origin 0
  else some (origin, 0)

/-- What `tile_find` reports through its output arguments. -/
structure Found where
  tilex : ℚ
  tiley : ℚ
  idx : ℤ
  idy : ℤ
deriving DecidableEq, Repr

/-- cube-cl.c:438-498 `tile_find`. -/
def tileFind (cube : Cube) (x y : ℚ) : Option Found :=
  (findX cube.originX cube.tileSizeX x).bind fun fx =>
  (findY cube.originY cube.tileSizeY y).bind fun fy =>
  some { tilex := fx.1, tiley := fy.1, idx := fx.2, idy := fy.2 }

/-- cube-cl.c:522 `while (t0x < ulx) t0x += cube->resolution;`. -/
def alignRight (ulx res t0x : ℚ) : Option ℚ :=
  if t0x < ulx then alignRight ulx res (t0x + res) else some t0x
partial_fixpoint

/-- cube-cl.c:528 `while (t0y > uly) t0y -= cube->resolution;`. -/
def alignDown (uly res t0y : ℚ) : Option ℚ :=
  if t0y > uly then alignDown uly res (t0y - res) else some t0y
partial_fixpoint

/-- cube-cl.c:512-533 `tile_align`: the new upper left corner. -/
def tileAlign (cube : Cube) (ulx uly : ℚ) : Option (ℚ × ℚ) :=
  (tileFind cube ulx uly).bind fun f =>
  (alignRight ulx cube.resolution f.tilex).bind fun t0x =>
  (alignDown uly cube.resolution f.tiley).bind fun t0y =>
  some (t0x - cube.resolution, t0y + cube.resolution)

/-! ## Active tiles -/

/-- `tile_extent`, cube-cl.h:53. -/
structure Extent where
  minX : ℤ
  maxX : ℤ
  minY : ℤ
  maxY : ℤ
deriving DecidableEq, Repr

/-- cube-cl.c:197-199, `dim_tiles.cells`. -/
def Extent.cells (e : Extent) : ℤ := (e.maxX - e.minX + 1) * (e.maxY - e.minY + 1)

/-- `for (t=lo; t<=hi; t++)`: the values of the loop variable. -/
def loopRange (lo hi : ℤ) : List ℤ :=
  (List.range (hi - lo + 1).toNat).map fun i : Nat => lo + (i : ℤ)

/-- tile-cl.c:104-117 `tile_allowlisted` (`true` is SUCCESS). -/
def tileAllowlisted (allow : List (ℤ × ℤ)) (x y : ℤ) : Bool :=
  if allow.length > 0 then
    allow.foldl (fun ok a => if x = a.1 ∧ y = a.2 then true else ok) false
  else true

/-- tile-cl.c:143-154, the list of tiles in the order in which they are stored. -/
def activeTiles (allow : List (ℤ × ℤ)) (e : Extent) : List (ℤ × ℤ) :=
  (loopRange e.minY e.maxY).foldl (fun acc ty =>
    (loopRange e.minX e.maxX).foldl (fun acc tx =>
      if tileAllowlisted allow tx ty = false then acc else acc ++ [(tx, ty)]) acc) []

/-- A C string buffer: its bytes up to the terminating NUL, as a function of the start
index. -/
def cstr (buffer : List Char) (start : Nat) : List Char :=
  (buffer.drop start).takeWhile (fun c => c ≠ '\x00')

/-- `fgets` into `buffer`: the line and a terminating NUL overwrite the start of the
buffer, the rest keeps its old content. -/
def store (buffer line : List Char) : List Char :=
  line ++ '\x00' :: buffer.drop (line.length + 1)

/-- tile-cl.c:75-78, one line of the allow-list. -/
def parseId (buffer : List Char) : ℤ × ℤ :=
  (Libc.atoi ((cstr buffer 1).take 4), Libc.atoi ((cstr buffer 7).take 4))

/-- tile-cl.c:70-80, the loop over the lines; `none` is FAILURE. -/
def readIds : Nat → List Char → List (List Char) → Option (List (ℤ × ℤ))
  | 0, _, _ => some []
  | _ + 1, _, [] => none
  | k + 1, buffer, line :: lines =>
    let buffer := store buffer line
    (readIds k buffer lines).map fun ids => parseId buffer :: ids

/-- tile-cl.c:40-91 `tile_readlist`. `file = none` stands for the file name "NULL",
`some none` for a file that cannot be opened. `none` is FAILURE. -/
def tileReadlist (file : Option (Option (List Char))) : Option (List (ℤ × ℤ)) :=
  match file with
  | none => some []
  | some none => none
  | some (some text) =>
    match Libc.fgetsAll 1024 text with
    | [] => none
    | first :: lines =>
      let buffer := store (List.replicate 1024 '\x00') first
      let k := Libc.atoi (cstr buffer 0)
      if k ≤ 0 then none else readIds k.toNat buffer lines

/-- tile-cl.c:129-164 `tile_active`: `none` is FAILURE, otherwise the list of tiles. -/
def tileActive (file : Option (Option (List Char))) (e : Extent) : Option (List (ℤ × ℤ)) :=
  match tileReadlist file with
  | none => none
  | some allow =>
    let tiles := activeTiles allow e
    if tiles.length = 0 then none else some tiles

end Verif.Tile
