import Verif.Tile.Model
import Verif.Qai.Model
import Verif.Index.Model

/-!
# Model of the small tools

`force-hist`, `force-stack`, `force-tabulate-grid`, `force-tile-finder` and `force-qai-inflate`. Opening, reading and writing of files, and the transformation
of coordinates, are left out: pixels, properties of the files, and map coordinates are given.
-/

namespace Verif.Tools

open Verif.Str (Out)

/-! ## force-hist -/

/-- force-hist.c:151-152: `offset`, `length`. -/
def offset : Int := 32767 + 1
def length : Nat := 65535 + 1

/-- force-hist.c:185-200: the loops over lines and columns; `c` is the second column of the table. -/
def count (nodata : Int) : List Int → (Nat → Nat) → Out (Nat → Nat)
  | [], c => .ok c
  | v :: vs, c =>
    if v = nodata then count nodata vs c
    else if 0 ≤ v + offset ∧ v + offset < length then
      count nodata vs (fun k => if (k : Int) = v + offset then c k + 1 else c k)
    else .ub

/-- force-hist.c:173-211: what is written; `nodata` is the nodata value of the band, if it has one, and `pixels` are the pixels, converted to 16 bits by GDAL. -/
def histogram (nodata : Option ℚ) (pixels : List Int) : Out (List (Int × Nat)) :=
  match nodata with
  | none => .exit
  | some nd =>
    (Index.short nd).bind fun nd =>
    (count nd pixels fun _ => 0).bind fun c =>
    .ok (((List.range length).filter fun k : Nat => decide (c k ≠ 0)).map fun k : Nat => ((k : Int) - offset, c k))

/-! ## force-stack -/

/-- `img_t`, force-stack.c:47-55, and what the tool reads of an input file. -/
structure File where
  dname : String
  nx : Nat
  ny : Nat
  nb : Nat
  geotran : List ℚ
  proj : String
deriving DecidableEq, Repr

/-- force-stack.c:225-239: the tests of one file against the first one; whether the bands differ. -/
def consistent (first f : File) : Bool := f.dname == first.dname && f.nx == first.nx && f.ny == first.ny

/-- force-stack.c:199-242: `interleave`. -/
def byBand (first : File) (rest : List File) : Bool := rest.all fun f => f.nb == first.nb

/-- force-stack.c:250-277: file and band (from 1) of each band of the result. -/
def order (first : File) (rest : List File) : List (Nat × Nat) :=
  let files := first :: rest
  if byBand first rest then
    (List.range first.nb).flatMap fun b => (List.range files.length).map fun f => (f, b + 1)
  else
    (List.range files.length).flatMap fun f => (List.range (files.getD f first).nb).map fun b => (f, b + 1)

/-- The result: size, position, and the sources of the bands. -/
structure Stack where
  nx : Nat
  ny : Nat
  geotran : List ℚ
  proj : String
  bands : List (Nat × Nat)

/-- force-stack.c:174-277; none: refused. `vrt`: the extension is `.vrt`; `there`: the output exists. -/
def stack (vrt there : Bool) (ddst : String) : List File → Option Stack
  | first :: rest =>
    if rest = [] then none
    else if !vrt || there then none
    else if !rest.all (consistent first) then none
    else if ddst ≠ first.dname then none
    else
      let last := (first :: rest).getLast (by simp)
      some ⟨last.nx, last.ny, first.geotran, first.proj, order first rest⟩
  | [] => none

/-! ## force-tabulate-grid, force-tile-finder -/

/-- Minimum and maximum of the coordinates. -/
structure Box where
  minX : ℚ
  minY : ℚ
  maxX : ℚ
  maxY : ℚ
deriving DecidableEq, Repr

/-- force-tabulate-grid.c:216, 234-237. -/
def Box.init : Box := ⟨2147483647, 2147483647, -2147483648, -2147483648⟩
def Box.add (m : Box) (p : ℚ × ℚ) : Box :=
  { minX := if p.1 < m.minX then p.1 else m.minX
    minY := if p.2 < m.minY then p.2 else m.minY
    maxX := if p.1 > m.maxX then p.1 else m.maxX
    maxY := if p.2 > m.maxY then p.2 else m.maxY }

/-- One feature of the grid: tile numbers and corners of the ring. -/
structure Feature where
  x : ℤ
  y : ℤ
  ring : List (ℚ × ℚ)
deriving DecidableEq, Repr

/-- force-tabulate-grid.c:284-315: the feature of a tile. -/
def feature (cube : Tile.Cube) (px py : ℤ) : Feature :=
  let left := cube.originX + cube.tileSizeX * px
  let right := cube.originX + cube.tileSizeX * (px + 1)
  let top := cube.originY - cube.tileSizeY * py
  let bottom := cube.originY - cube.tileSizeY * (py + 1)
  ⟨px, py, [(left, top), (right, top), (right, bottom), (left, bottom), (left, top)]⟩

/-- `for (k=a; k<=b; k++)`. -/
def upTo (a b : ℤ) : List ℤ := (List.range (b + 1 - a).toNat).map fun n : Nat => a + n

/-- force-tabulate-grid.c:229-323: the features; `corners` are the map coordinates of the corners of the bounding box. None: `tile_find` does not return. -/
def grid (cube : Tile.Cube) (corners : List (ℚ × ℚ)) : Option (List Feature) :=
  let m := corners.foldl Box.add Box.init
  (Tile.tileFind cube m.minX m.maxY).bind fun ul =>
  (Tile.tileFind cube m.maxX m.minY).bind fun lr =>
  some ((upTo ul.idy lr.idy).flatMap fun py => (upTo ul.idx lr.idx).map fun px => feature cube px py)

/-- force-tile-finder.c:180-185: tile and pixel (column, row) of a point. -/
def findPixel (cube : Tile.Cube) (x y : ℚ) : Option ((ℤ × ℤ) × (ℤ × ℤ)) :=
  (Tile.tileFind cube x y).bind fun f =>
  some ((f.idx, f.idy), (Index.truncQ ((x - f.tilex) / cube.resolution), Index.truncQ ((f.tiley - y) / cube.resolution)))

/-! ## force-qai-inflate -/

/-- `_QAI_FLAG_*_`, enum-cl.h:106-110: the bands. -/
def flags : List Qai.Flag := [.off, .cld, .shd, .snw, .wtr, .aod, .sub, .sat, .sun, .ill, .slp, .wvp]

/-- force-qai-inflate.c:204-217: the bands of one pixel (stored as bytes). -/
def inflate (v : BitVec 16) : List Nat := flags.map fun f => Qai.get f v % 256

end Verif.Tools
