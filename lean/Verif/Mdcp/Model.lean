import Mathlib.Data.List.Basic

/-!
Model of `force-mdcp` (src/main/aux-level/force-mdcp.c), which copies FORCE's metadata from one image to another. The command
line is in `Verif.Args`. GDAL is modelled by what it stores: metadata items in domains, descriptions and pixels.
-/

namespace Verif.Mdcp

abbrev Text := List Char

/-- A band as GDAL stores it: metadata items by domain, description, pixels. -/
structure Band where
  items : Text → List Text
  name : Text
  pixels : List Int

/-- An image as GDAL stores it: metadata items by domain, bands. -/
structure Image where
  items : Text → List Text
  bands : List Band

/-- `GDALSetMetadata` with a domain: the items of the domain are replaced; a NULL list (no items) empties the domain. -/
def setItems (old : Text → List Text) (domain : Text) (new : List Text) : Text → List Text :=
  fun d => if d = domain then new else old d

/-- The domain, force-mdcp.c:151, 155, 163, 167. -/
def force : Text := "FORCE".toList

/-- force-mdcp.c:157-173: one band; `b` counts from 0. A band that does not exist is left alone: it cannot occur, as the
numbers of bands are equal. -/
def copyBand (src : List Band) (dst : List Band) (b : Nat) : List Band :=
  match src[b]?, dst[b]? with
  | some s, some d => dst.set b { items := setItems d.items force (s.items force), name := s.name, pixels := d.pixels }
  | _, _ => dst

/-- force-mdcp.c:150-173: what is stored in the second image. -/
def copyAll (src dst : Image) : Image :=
  { items := setItems dst.items force (src.items force)
    bands := (List.range src.bands.length).foldl (copyBand src.bands) dst.bands }

/-- force-mdcp.c:125-181 `main` after the command line: the images afterwards, and whether the program succeeds. `fs` holds the
images that can be opened. -/
def mdcp (fsrc fdst : Text) (fs : Text → Option Image) : (Text → Option Image) × Bool :=
  match fs fsrc with
  | none => (fs, false)
  | some src =>
    match fs fdst with
    | none => (fs, false)
    | some dst =>
      if src.bands.length ≠ dst.bands.length then (fs, false)
      else (fun n => if n = fdst then some (copyAll src dst) else fs n, true)

end Verif.Mdcp
