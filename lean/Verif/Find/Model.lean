import Verif.Str.Model

/-!
Finding input files by name: dir-cl.c (`findfile_pattern`, `findfile_starts`, `countfile`), the mission and the
names derived from a Level 1 directory: meta-ll.c (`parse_metadata_mission`, the image names and the tile of a
Sentinel-2 granule, `append_reference_system_to_dem`), param-ll.c (the granule of a .SAFE product).

A directory is the list of its names in the order of `readdir`, `none` if it cannot be opened. Texts are lists of
characters without NUL.
-/

namespace Verif.Find

open Verif.Str

/-- The result of a search: the return value, the text in the buffer, and whether the directory has been closed
again (true also if it could not be opened). -/
structure Found where
  ok : Bool
  fname : List Char
  closed : Bool
deriving DecidableEq, Repr

/-- dir-cl.c:64-66: the name contains the pattern and, if there is a filter, the filter. -/
def fits (pattern : List Char) (filter : Option (List Char)) (name : List Char) : Bool :=
  (strstr name pattern).isSome && (match filter with
    | none => true
    | some f => (strstr name f).isSome)

/-- dir-cl.c:68-81, the same at 123-135: the first match `name`; the text that `snprintf` writes is cut to
`size - 1` characters. -/
def assemble (dir name : List Char) (size : Nat) : Found :=
  if dir.length + name.length + 1 > size then ⟨false, [], true⟩
  else
    let text := dir ++ '/' :: name
    if text.length ≥ size then ⟨false, text.take (size - 1), false⟩
    else ⟨true, text, true⟩

/-- dir-cl.c:52-94 `findfile_pattern`. -/
def find (dir : List Char) (listing : Option (List (List Char))) (pattern : List Char)
    (filter : Option (List Char)) (size : Nat) : Found :=
  match listing with
  | none => ⟨false, [], true⟩
  | some names =>
    match names.find? (fits pattern filter) with
    | none => ⟨false, [], true⟩
    | some name => assemble dir name size

/-- dir-cl.c:119-121: the name starts with the pattern and, if there is a filter, contains the filter. -/
def startFits (pattern : List Char) (filter : Option (List Char)) (name : List Char) : Bool :=
  pattern.isPrefixOf name && (match filter with
    | none => true
    | some f => (strstr name f).isSome)

/-- dir-cl.c:108-145 `findfile_starts`: the pattern has to be at the start of the name; the directory is not
closed after the loop. -/
def findStarts (dir : List Char) (listing : Option (List (List Char))) (pattern : List Char)
    (filter : Option (List Char)) (size : Nat) : Found :=
  match listing with
  | none => ⟨false, [], true⟩
  | some names =>
    match names.find? (startFits pattern filter) with
    | none => ⟨false, [], false⟩
    | some name => assemble dir name size

/-- dir-cl.c:154-168 `countfile`. -/
def count (listing : Option (List (List Char))) (pattern : List Char) : Nat :=
  match listing with
  | none => 0
  | some names => names.foldl (fun k n => if (strstr n pattern).isSome then k + 1 else k) 0

/-- The missions. -/
inductive Mission where
  | landsat
  | sentinel2
  | unknown
deriving DecidableEq, Repr

/-- meta-ll.c:1454-1474 `parse_metadata_mission`: the mission and the resolution that is set (`before`: the value
the parameter had). -/
def mission (dir : List Char) (listing : Option (List (List Char))) (resLandsat resSentinel before : Int) :
    Mission × Int :=
  if (find dir listing "MTL".toList (some ".txt".toList) 1024).ok then (.landsat, resLandsat)
  else if (find dir listing "S2A".toList (some ".xml".toList) 1024).ok ||
      (find dir listing "MTD".toList (some ".xml".toList) 1024).ok then (.sentinel2, resSentinel)
  else (.unknown, before)

/-- param-ll.c:174-191: for a directory with the extension .SAFE, the first granule; then the base name. Returns
the directory and the base name, `none` for a failure. `ls` lists a directory. `strncat` appends at most
`1024 - strlen - 1` characters. -/
def enter (ls : List Char → Option (List (List Char))) (path : List Char) :
    Out (Option (List Char × List Char)) :=
  (extension path 1024).bind fun e =>
    if e.1 = ".SAFE".toList then
      let d := e.2 ++ "/GRANULE".toList.take (1024 - e.2.length - 1)
      let r := find d (ls d) "L1C".toList none 1024
      if r.ok then
        (copyText 1024 r.fname).bind fun d =>
          (basenameWithoutExt d 1024).bind fun b => .ok (some (b.2, b.1))
      else .ok none
    else
      (basenameWithoutExt e.2 1024).bind fun b => .ok (some (b.2, b.1))

/-- meta-ll.c:857-862: the tile from the base name; `none`: the text behind the end of the name is read, which is
left over in the buffer. -/
def tile (base : List Char) : Option (List Char) :=
  if base.length > 50 then some ((base.drop 49).take 6)
  else if base.length < 4 then none
  else some ((base.drop 4).take 6)

/-- meta-ll.c:837-839, 846-851: the image of a band; `band` is the text of the band number. -/
def image (ls : List Char → Option (List (List Char))) (dir band : List Char) : Option (List Char) :=
  let d := dir ++ "/IMG_DATA".toList
  if d.length ≥ 1024 then none
  else
    let id := "_B".toList ++ band ++ ".jp2".toList
    if id.length ≥ 1024 then none
    else
      let r := find d (ls d) id none 1024
      if r.ok then some r.fname else none

/-- meta-ll.c:770-835: the band numbers of Sentinel-2 in the order of the bands. -/
def bands : List (List Char) :=
  ["01", "02", "03", "04", "05", "06", "07", "08", "8A", "09", "10", "11", "12"].map String.toList

/-- meta-ll.c:842-853: the images of all bands; the first band without image ends the program's unit. -/
def images (ls : List Char → Option (List (List Char))) (dir : List Char) : Option (List (List Char)) :=
  bands.mapM (image ls dir)

/-- meta-ll.c:1482-1507 `append_reference_system_to_dem`: the name of the DEM afterwards, `none` for a failure.
`present` tells which files exist (libc `access`). -/
def demName (database : Bool) (dem : List Char) (type id : List Char) (present : List Char → Bool) :
    Option (List Char) :=
  if database then
    let text := dem ++ '/' :: type ++ '_' :: id ++ ".vrt".toList
    if text.length ≥ 1024 then none
    else if present text then some text
    else none
  else some dem

end Verif.Find
