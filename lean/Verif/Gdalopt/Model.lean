import Verif.Cube.Model
import Verif.Str.Model

/-!
# Model of the output options for GDAL

`src/modules/cross-level/gdalopt-cl.c`, the use of the options in `src/modules/cross-level/brick_io-cl.cpp` and the option arrays of
`src/modules/cross-level/vector-cl.c`. Simplification: GDAL is not modelled, only what it is given.
-/

namespace Verif.Gdalopt

open Verif.Str (Out StrVec allocVec fillVec fillString cstr nul)

/-- gdalopt-cl.h `gdalopt_t`; `none`: NULL. -/
structure Opt where
  driver : Option (List Char)
  extension : Option (List Char)
  tags : StrVec
  vals : StrVec
deriving DecidableEq, Repr

/-- The zeroed structure. -/
def Opt.zero : Opt := ⟨none, none, StrVec.empty, StrVec.empty⟩

/-- `OUTPUT_FORMAT`. -/
inductive Format where
  | envi
  | gtiff
  | cog
  | jpeg
  | custom
deriving DecidableEq, Repr

/-- gdalopt-cl.c:31-39 `GTIFF_OPTIONS`. -/
def gtiffOptions : List (String × String) :=
  [("COMPRESS", "ZSTD"), ("PREDICTOR", "2"), ("INTERLEAVE", "BAND"), ("BIGTIFF", "YES"), ("TILED", "YES"), ("BLOCKXSIZE", "256"), ("BLOCKYSIZE", "256")]

/-- gdalopt-cl.c:42-49 `COG_OPTIONS`. -/
def cogOptions : List (String × String) :=
  [("COMPRESS", "ZSTD"), ("PREDICTOR", "YES"), ("INTERLEAVE", "TILE"), ("BLOCKSIZE", "256"), ("BIGTIFF", "YES"), ("OVERVIEW_RESAMPLING", "AVERAGE")]

/-- gdalopt-cl.c:76-78, 89-91, 138-141: longest text. -/
def maxLen (l : List (List Char)) : Nat := l.foldl (fun n s => if s.length > n then s.length else n) 0

/-- gdalopt-cl.c:80-82, 93-95, 230-233: texts one after the other, from position `o`. -/
def fillFrom (v : StrVec) (o : Nat) : List (List Char) → Out StrVec
  | [] => .ok v
  | s :: ss => (fillVec v o s).bind fun v => fillFrom v (o + 1) ss

/-- gdalopt-cl.c:75-83, 88-96: one of the two vectors of a table. -/
def table (l : List (List Char)) : Out StrVec := (allocVec l.length (maxLen l)).bind fun v => fillFrom v 0 l

/-- gdalopt-cl.c:58-110 `default_gdaloptions`; `none`: a format without table. -/
def withTable (ext driver : String) (t : List (String × String)) : Out Opt :=
  (fillString ext.toList).bind fun e => (fillString driver.toList).bind fun d =>
    if t = [] then .ok ⟨some (cstr d), some (cstr e), StrVec.empty, StrVec.empty⟩
    else (table (t.map fun p => p.1.toList)).bind fun a => (table (t.map fun p => p.2.toList)).bind fun b => .ok ⟨some (cstr d), some (cstr e), a, b⟩

/-- gdalopt-cl.c:67-107. -/
def defaults : Format → Out Opt
  | .envi => withTable "dat" "ENVI" []
  | .gtiff => withTable "tif" "GTiff" gtiffOptions
  | .cog => withTable "tif" "COG" cogOptions
  | .jpeg => withTable "jpg" "JPEG" []
  | .custom => .ok Opt.zero

/-- gdalopt-cl.c:148-158: one line of the file; the second component is `o`. -/
def setRow (s : Opt × Nat) (r : List Char × List Char) : Out (Opt × Nat) :=
  if r.1 = "DRIVER".toList then (fillString r.2).bind fun b => .ok ({ s.1 with driver := some (cstr b) }, s.2)
  else if r.1 = "EXTENSION".toList then (fillString r.2).bind fun b => .ok ({ s.1 with extension := some (cstr b) }, s.2)
  else (fillVec s.1.tags s.2 r.1).bind fun t => (fillVec s.1.vals s.2 r.2).bind fun v => .ok ({ s.1 with tags := t, vals := v }, s.2 + 1)

/-- gdalopt-cl.c:146-160. -/
def setRows (s : Opt × Nat) : List (List Char × List Char) → Out (Opt × Nat)
  | [] => .ok s
  | r :: rs => (setRow s r).bind fun s => setRows s rs

/-- gdalopt-cl.c:118-180 `parse_gdaloptions` on the content of the file. With one line, 2^64-1 rows are asked for, which ends the process like zero rows. -/
def parse (file : Option (List Char)) : Out Opt :=
  match Cube.readTagvalue file with
  | .exit => .exit
  | .null => .exit
  | .ok rows =>
    if rows.length ≤ 2 then .exit
    else (allocVec (rows.length - 2) (maxLen (rows.map (·.1)))).bind fun t => (allocVec (rows.length - 2) (maxLen (rows.map (·.2)))).bind fun v =>
      (setRows (⟨none, none, t, v⟩, 0) rows).bind fun s =>
        if s.1.driver = none then .exit else if s.1.extension = none then .exit else .ok s.1

/-- gdalopt-cl.c:227-237 (one of the two vectors): the elements of `src` are copied. -/
def copyVec (src : StrVec) : Out StrVec :=
  if src.number > 0 then (allocVec src.number src.length).bind fun v => fillFrom v 0 (src.rows.map cstr)
  else .ok StrVec.empty

/-- gdalopt-cl.c:215-240 `copy_gdaloptions`. -/
def copy (src : Opt) : Out Opt :=
  match src.driver with
  | none => .exit
  | some d => (fillString d).bind fun d =>
    match src.extension with
    | none => .exit
    | some e => (fillString e).bind fun e =>
      if src.tags.number ≠ src.vals.number then .exit
      else (copyVec src.tags).bind fun t => (copyVec src.vals).bind fun v => .ok ⟨some (cstr d), some (cstr e), t, v⟩

/-- Copies of copies. -/
def copies : Nat → Opt → Out Opt
  | 0, o => .ok o
  | n + 1, o => (copy o).bind (copies n)

/-- brick_io-cl.cpp:181-198: the options that are set, in this order; `none`: FAILURE. -/
def passed (o : Opt) : Option (List (List Char × List Char)) :=
  if o.tags.number ≠ o.vals.number then none else some ((o.tags.rows.map cstr).zip (o.vals.rows.map cstr))

/-! ## Option arrays -/

/-- GDAL walks through an array of pointers until it finds NULL; `none` of the list: NULL. Reading behind the block is undefined. -/
def walk : List (Option (List Char)) → Out (List (List Char))
  | [] => .ub
  | none :: _ => .ok []
  | some s :: l => (walk l).bind fun r => .ok (s :: r)

/-- vector-cl.c:71-74 `alloc_2D` with 2 pointers, both set. -/
def translateArgs (proj : List Char) : List (Option (List Char)) := [some "-t_srs".toList, some proj]

/-- vector-cl.c:148-151. -/
def burnArgs : List (Option (List Char)) := [some "-burn".toList, some "1".toList]

end Verif.Gdalopt
