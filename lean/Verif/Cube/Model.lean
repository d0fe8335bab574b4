import Verif.Libc.Model

/-!
# Model of the datacube definition file

`src/modules/cross-level/cube-cl.c`, `src/modules/cross-level/read-cl.c` and
`src/modules/cross-level/lock-cl.c`.

Simplification: doubles are rational numbers; `rd` is the rounding of a decimal text to a
double (any function). Strings are lists of characters other than NUL.
-/

namespace Verif.Cube
open Verif.Libc

/-- The members of `cube_t` that make up the definition, cube-cl.h:48-61. -/
structure Def where
  projection : List Char
  originGeoX : ℚ
  originGeoY : ℚ
  originMapX : ℚ
  originMapY : ℚ
  tileSizeX : ℚ
  tileSizeY : ℚ
deriving DecidableEq, Repr

/-- cube-cl.c:103-117 `init_datacube`. -/
def initDef : Def := ⟨[], 0, 0, 0, 0, 0, 0⟩

/-- One line `TAG = value\n`, cube-cl.c:255-261. -/
def tagLine (tag value : List Char) : List Char := tag ++ ' ' :: '=' :: ' ' :: value ++ ['\n']

/-- The text written by cube-cl.c:255-261 in `write_datacube_def`. -/
def defText (c : Def) : List Char :=
  tagLine "PROJECTION".toList c.projection ++
  tagLine "ORIGIN_GEO_X".toList (fmtF c.originGeoX) ++
  tagLine "ORIGIN_GEO_Y".toList (fmtF c.originGeoY) ++
  tagLine "ORIGIN_MAP_X".toList (fmtF c.originMapX) ++
  tagLine "ORIGIN_MAP_Y".toList (fmtF c.originMapY) ++
  tagLine "TILE_SIZE_X".toList (fmtF c.tileSizeX) ++
  tagLine "TILE_SIZE_Y".toList (fmtF c.tileSizeY)

/-- Outcome of a reading function: the process ends (`exit`), the NULL pointer, or a
value. -/
inductive Res (α : Type) where
  | exit
  | null
  | ok (a : α)
deriving DecidableEq, Repr

/-- The separators of read-cl.c:40. -/
def isSep (c : Char) : Bool := c = ' ' || c = '='

/-- `"\r\n"`, read-cl.c:60. -/
def isEol (c : Char) : Bool := c = '\r' || c = '\n'

/-- read-cl.c:60-81, one line. `copy_string` (string-cl.c:42-51) ends the process if the
token does not fit into 1024 bytes. -/
def tagValueLine (line : List Char) : Res (List Char × List Char) :=
  match strtok isSep (cutAt isEol line) with
  | none => .null
  | some (tag, rest) =>
    if tag.length ≥ 1024 then .exit
    else match strtok isSep rest with
      | none => .null
      | some (val, _) => if val.length ≥ 1024 then .exit else .ok (tag, val)

/-- read-cl.c:60-91, the loop over the lines. -/
def tagValueLines : List (List Char) → Res (List (List Char × List Char))
  | [] => .ok []
  | line :: lines =>
    match tagValueLine line with
    | .exit => .exit
    | .null => .null
    | .ok tv => match tagValueLines lines with
      | .exit => .exit
      | .null => .null
      | .ok tvs => .ok (tv :: tvs)

/-- read-cl.c:36-102 `read_tagvalue` on the content of the file (`none`: cannot be
opened). Without any line the array is shrunk to zero rows, for which `re_alloc`
(alloc-cl.c:126-142) ends the process. -/
def readTagvalue (file : Option (List Char)) : Res (List (List Char × List Char)) :=
  match file with
  | none => .null
  | some text =>
    match tagValueLines (fgetsAll 65536 text) with
    | .ok [] => .exit
    | r => r

/-- cube-cl.c:299 `"\r\n#"`. -/
def isEolHash (c : Char) : Bool := c = '\r' || c = '\n' || c = '#'

/-- cube-cl.c:280-322 `read_datacube_def_deprecated`: six lines without tags. -/
def readDeprecated (file : Option (List Char)) : Res (List (List Char × List Char)) :=
  match file with
  | none => .exit
  | some text =>
    match (fgetsAll 1024 text).map (cutAt isEolHash) with
    | l0 :: l1 :: l2 :: l3 :: l4 :: l5 :: _ =>
      .ok [("PROJECTION".toList, l0), ("ORIGIN_GEO_X".toList, l1), ("ORIGIN_GEO_Y".toList, l2),
        ("ORIGIN_MAP_X".toList, l3), ("ORIGIN_MAP_Y".toList, l4), ("TILE_SIZE_Y".toList, l5),
        ("TILE_SIZE_X".toList, l5)]
    | _ => .exit

/-- cube-cl.c:353-385, one line of the definition; `none` is an unknown tag. -/
def setTag (rd : ℚ → ℚ) (c : Def) (tag val : List Char) : Option Def :=
  if tag = "PROJECTION".toList then some { c with projection := val }
  else if tag = "ORIGIN_GEO_X".toList then some { c with originGeoX := atof rd val }
  else if tag = "ORIGIN_GEO_Y".toList then some { c with originGeoY := atof rd val }
  else if tag = "ORIGIN_MAP_X".toList then some { c with originMapX := atof rd val }
  else if tag = "ORIGIN_MAP_Y".toList then some { c with originMapY := atof rd val }
  else if tag = "TILE_SIZE_X".toList then some { c with tileSizeX := atof rd val }
  else if tag = "TILE_SIZE_Y".toList then some { c with tileSizeY := atof rd val }
  else none

/-- cube-cl.c:353-386, the loop over the lines; state: definition and `received`. -/
def parseDef (rd : ℚ → ℚ) : List (List Char × List Char) → Def × Nat → Option (Def × Nat)
  | [], s => some s
  | tv :: tvs, s =>
    match setTag rd s.1 tv.1 tv.2 with
    | none => none
    | some c => parseDef rd tvs (c, s.2 + 1)

/-- cube-cl.c:331-399 `read_datacube_def` on the content of the definition file. -/
def readDef (rd : ℚ → ℚ) (file : Option (List Char)) : Res Def :=
  let input := match readTagvalue file with
    | .null => readDeprecated file
    | r => r
  match input with
  | .exit => .exit
  | .null => .null
  | .ok tvs =>
    match parseDef rd tvs (initDef, 0) with
    | none => .null
    | some (c, received) => if received ≠ 7 then .null else .ok c

/-! ## Concurrent writers -/

/-- Program counter of a process in `write_datacube_def`, cube-cl.c:242-270. -/
inductive PC where
  /-- before the `fileexist` test, cube-cl.c:248 -/
  | check
  /-- before `lock_file`, cube-cl.c:250 -/
  | lock
  /-- before `fopen(..., "w")`, cube-cl.c:252 -/
  | open
  /-- file opened and truncated, text not yet written; before `fclose`, cube-cl.c:263 -/
  | write
  /-- before `unlock_file`, cube-cl.c:265 -/
  | unlock
  /-- returned SUCCESS -/
  | success
  /-- returned FAILURE -/
  | failure
deriving DecidableEq, Repr

/-- The shared directory: content of the definition file, and the owner of the lock
file. -/
structure Shared (ι C : Type) where
  file : Option (Option C)
  lock : Option ι
  pc : ι → PC

/-- One step of process `i`. `text i` is what process `i` writes; the file content is
`none` (no file), `some none` (empty) or `some (some t)`. The lock file of `CPLLockFile`
is assumed to be created atomically; waiting for the lock ends with the lock or with a
time-out. The text is shorter than the stdio buffer and reaches the file at `fclose`. -/
inductive Step {ι C : Type} [DecidableEq ι] (text : ι → C) : Shared ι C → Shared ι C → Prop
  /-- the file exists: return SUCCESS -/
  | exists_ (s : Shared ι C) (i : ι) (h : s.pc i = .check) (hf : s.file ≠ none) :
      Step text s { s with pc := Function.update s.pc i .success }
  /-- the file does not exist -/
  | missing (s : Shared ι C) (i : ι) (h : s.pc i = .check) (hf : s.file = none) :
      Step text s { s with pc := Function.update s.pc i .lock }
  | acquire (s : Shared ι C) (i : ι) (h : s.pc i = .lock) (hl : s.lock = none) :
      Step text s { s with lock := some i, pc := Function.update s.pc i .open }
  | timeout (s : Shared ι C) (i : ι) (h : s.pc i = .lock) (hl : s.lock ≠ none) :
      Step text s { s with pc := Function.update s.pc i .failure }
  | open_ (s : Shared ι C) (i : ι) (h : s.pc i = .open) :
      Step text s { s with file := some none, pc := Function.update s.pc i .write }
  /-- `fopen` fails: FAILURE is returned without `unlock_file`, cube-cl.c:252-253 -/
  | openFails (s : Shared ι C) (i : ι) (h : s.pc i = .open) :
      Step text s { s with pc := Function.update s.pc i .failure }
  | write (s : Shared ι C) (i : ι) (h : s.pc i = .write) :
      Step text s { s with file := some (some (text i)), pc := Function.update s.pc i .unlock }
  | unlock (s : Shared ι C) (i : ι) (h : s.pc i = .unlock) :
      Step text s { s with lock := none, pc := Function.update s.pc i .success }

/-- Executions: any number of steps of any processes. -/
inductive Exec {ι C : Type} [DecidableEq ι] (text : ι → C) : Shared ι C → Shared ι C → Prop
  | refl (s : Shared ι C) : Exec text s s
  | tail {a b c : Shared ι C} : Exec text a b → Step text b c → Exec text a c

/-- All processes start at the `fileexist` test, nobody holds the lock. -/
def start {ι C : Type} (file : Option (Option C)) : Shared ι C :=
  { file := file, lock := none, pc := fun _ => .check }

end Verif.Cube
