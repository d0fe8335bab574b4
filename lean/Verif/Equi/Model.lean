import Verif.Libc.Model
import Mathlib.Data.Rat.Floor

/-!
# Continental datacubes and images that are not tiled: model

`start_multicube`, `cube_level2` and `flush_level2` of `src/modules/lower-level/cube-ll.c`, the loop over the
continents and `write_equi7dict` of `src/modules/lower-level/equi7-ll.c`, the loop over the continents of
`src/modules/lower-level/glance7-ll.c`. Simplifications: the numbers of tiles are integers of less than 2^24, so
that products with the tile size are exact in `double`; GDAL reads and writes whole images, or fails.
-/

namespace Verif.Equi

abbrev Text := List Char

/-! ### Which datacubes -/

/-- equi7-ll.c:42-43 and glance7-ll.c:39-40 `name7`: the directories. -/
def names : List Text :=
  ["africa".toList, "antarctica".toList, "asia".toList, "europe".toList, "n-america".toList, "oceania".toList,
    "s-america".toList]

/-- equi7-ll.c:47-48 `projname7`. -/
def equi7Proj : List Text :=
  ["EQUI7-AF".toList, "EQUI7-AN".toList, "EQUI7-AS".toList, "EQUI7-EU".toList, "EQUI7-NA".toList, "EQUI7-OC".toList,
    "EQUI7-SA".toList]

/-- glance7-ll.c:44-45 `projname7`. -/
def glance7Proj : List Text :=
  ["GLANCE-AF".toList, "GLANCE-AN".toList, "GLANCE-AS".toList, "GLANCE-EU".toList, "GLANCE-NA".toList,
    "GLANCE-OC".toList, "GLANCE-SA".toList]

/-- equi7-ll.c:178-182 and glance7-ll.c:132-136: the directories of the continents that are not skipped. -/
def started (all : Text) (projnames : List Text) (proj : Text) : List Text :=
  ((projnames.zip names).filter (fun k => !(decide (proj ≠ all) && decide (proj ≠ k.1)))).map (·.2)

/-- The datacubes that a run starts: continents of a predefined grid, or one datacube of the parameter file. -/
inductive Grid where
  | equi7 (dirs : List Text)
  | glance7 (dirs : List Text)
  | single
deriving DecidableEq, Repr

/-- cube-ll.c:523-563 `start_multicube`. -/
def multicube (doreproj : Bool) (proj : Text) : Grid :=
  if doreproj && (proj == "EQUI7".toList || proj == "EQUI7-AF".toList || proj == "EQUI7-AN".toList ||
      proj == "EQUI7-AS".toList || proj == "EQUI7-EU".toList || proj == "EQUI7-NA".toList ||
      proj == "EQUI7-OC".toList || proj == "EQUI7-SA".toList) then
    .equi7 (started "EQUI7".toList equi7Proj proj)
  else if doreproj && (proj == "GLANCE7".toList || proj == "GLANCE7-AF".toList || proj == "GLANCE7-AN".toList ||
      proj == "GLANCE7-AS".toList || proj == "GLANCE7-EU".toList || proj == "GLANCE7-NA".toList ||
      proj == "GLANCE7-OC".toList || proj == "GLANCE7-SA".toList) then
    .glance7 (started "GLANCE7".toList glance7Proj proj)
  else .single

/-! ### The dictionary of EQUI7 tiles -/

/-- equi7-ll.c:214-222, with the tile size of equi7-ll.c:194: the upper end of the grid. -/
def originY (tiles : List (Int × Int)) : ℚ :=
  ((tiles.foldl (fun m t => if t.2 > m then t.2 else m) (0 : Int) : Int) + 1) * 100000

/-- equi7-ll.c:129-130 (and 223): lower left corner of a tile, in metres. -/
def corner (tiles : List (Int × Int)) (t : Int × Int) : ℚ × ℚ :=
  (0 + t.1 * 100000, originY tiles - (t.2 + 1) * 100000)

/-- `%03.0f`: rounded to the nearest integer, at least three characters. The negative zero is not modelled: the corners
are not negative. -/
def fmt3 (v : ℚ) : Text := Libc.fmtInt0 3 (Libc.roundEven v)

/-- equi7-ll.c:132-133: the name of a tile in the datacube. -/
def forceName (t : Int × Int) : Text := 'X' :: Libc.fmtInt0 4 t.1 ++ "_Y".toList ++ Libc.fmtInt0 4 t.2

/-- equi7-ll.c:132-133: the name of a tile in EQUI7. -/
def equi7Name (abbr : Text) (tiles : List (Int × Int)) (t : Int × Int) : Text :=
  "E7G_".toList ++ abbr ++ '_' :: fmt3 ((corner tiles t).1 / 100000) ++ '_' :: fmt3 ((corner tiles t).2 / 100000) ++
    "_T1".toList

/-- equi7-ll.c:121-134: content of the dictionary. -/
def dictionary (abbr : Text) (tiles : List (Int × Int)) : Text :=
  tiles.flatMap (fun t => forceName t ++ ' ' :: equi7Name abbr tiles t ++ ['\n'])

/-- Contents of the files. -/
abbrev Files := Text → Option Text

/-- equi7-ll.c:113: name of the dictionary. -/
def dictName (dir : Text) : Text := dir ++ "/equi7-tile-dictionary.txt".toList

/-- equi7-ll.c:105-139 `write_equi7dict`: the files afterwards, and whether it succeeds. `writable`: the file can be
created. -/
def writeDict (dir abbr : Text) (tiles : List (Int × Int)) (writable : Bool) (fs : Files) : Files × Bool :=
  if (dictName dir).length ≥ 1024 then (fs, false)
  else if (fs (dictName dir)).isSome then (fs, true)
  else if writable then (fun n => if n = dictName dir then some (dictionary abbr tiles) else fs n, true)
  else (fs, false)

/-- The files if the program is killed in equi7-ll.c:121-136 when `k` characters have arrived in the file. -/
def killedDict (dir abbr : Text) (tiles : List (Int × Int)) (k : Nat) (fs : Files) : Files :=
  if (fs (dictName dir)).isSome then fs
  else fun n => if n = dictName dir then some ((dictionary abbr tiles).take k) else fs n

/-- How the start of a continental datacube ends: it goes on, the caller gets NULL, or memory that was freed is used. -/
inductive Fate where
  | started
  | stopped
  | undefined
deriving DecidableEq, Repr

/-- equi7-ll.c:343-362 for a continent that is covered: `made`: its directory exists or can be created, `defined`: its
definition can be written. Without `return` at equi7-ll.c:351-354 the definition is written from the datacube that
was freed. -/
def prepare (made writable defined : Bool) (dir abbr : Text) (tiles : List (Int × Int)) (fs : Files) : Files × Fate :=
  if !made then (fs, .stopped)
  else if !(writeDict dir abbr tiles writable fs).2 then ((writeDict dir abbr tiles writable fs).1, .undefined)
  else if !defined then ((writeDict dir abbr tiles writable fs).1, .stopped)
  else ((writeDict dir abbr tiles writable fs).1, .started)

/-! ### Images that are not tiled -/

/-- An image: columns, rows, bands and pixels. -/
structure Image where
  nx : Nat
  ny : Nat
  bands : Nat
  px : List Int
deriving DecidableEq, Repr

/-- A product: name without directory and extension (`fname`), extension and image. -/
structure Product where
  name : Text
  ext : Text
  image : Image
deriving DecidableEq, Repr

/-- Images on disc, by name. -/
abbrev Disc := Text → Option Image

/-- brick_io-cl.cpp:247-250: name of the file of a product (that is not exploded into bands). -/
def path (dname : Text) (p : Product) : Text := dname ++ '/' :: p.name ++ '.' :: p.ext

/-- brick_io-cl.cpp:247-330 `write_brick` for a product that is merged with an image of the same name (`open` is neither
CREATE nor CHUNK), none for a failure: an existing image must have the same size. `mosaic` combines the old and the
new pixels, `free`: there is space for the file. -/
def write (mosaic : List Int → List Int → List Int) (free : Text → Bool) (dname : Text) (p : Product) (d : Disc) :
    Option Disc :=
  if (path dname p).length ≥ 1024 then none else
  match d (path dname p) with
  | none => if free (path dname p) then some (fun n => if n = path dname p then some p.image else d n) else none
  | some old =>
    if old.bands ≠ p.image.bands ∨ old.nx ≠ p.image.nx ∨ old.ny ≠ p.image.ny then none
    else if free (path dname p) then
      some (fun n => if n = path dname p then some { p.image with px := mosaic old.px p.image.px } else d n)
    else none

/-- cube-ll.c:252-257: the products one after the other; the images on disc, and whether all were written. -/
def writeAll (mosaic : List Int → List Int → List Int) (free : Text → Bool) (dname : Text) :
    List Product → Disc → Disc × Bool
  | [], d => (d, true)
  | p :: ps, d =>
    match write mosaic free dname p d with
    | none => (d, false)
    | some d' => writeAll mosaic free dname ps d'

/-- cube-ll.c:238-267 `flush_level2`, which is what `cube_level2` (cube-ll.c:474-512) does without tiling; it returns
FAILURE if `flush_level2` does. `scene` is the path/row or the MGRS tile of the scene. -/
def flush (mosaic : List Int → List Int → List Int) (free : Text → Bool) (dirLevel2 scene : Text)
    (products : List Product) (d : Disc) : Disc × Bool :=
  if (dirLevel2 ++ '/' :: scene).length ≥ 1024 then (d, false)
  else writeAll mosaic free (dirLevel2 ++ '/' :: scene) products d

/-- force-l2ps.c:215-296 without tiling: the products of each continent that the scene covers, in their order; the
program stops at a failure. -/
def flushScene (mosaic : List Int → List Int → List Int) (free : Text → Bool) (dirLevel2 scene : Text) :
    List (List Product) → Disc → Disc × Bool
  | [], d => (d, true)
  | ps :: cs, d =>
    if (flush mosaic free dirLevel2 scene ps d).2
    then flushScene mosaic free dirLevel2 scene cs (flush mosaic free dirLevel2 scene ps d).1
    else ((flush mosaic free dirLevel2 scene ps d).1, false)

end Verif.Equi
