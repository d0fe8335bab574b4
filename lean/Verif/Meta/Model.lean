import Mathlib.Data.Rat.Floor
import Mathlib.Data.List.Infix
import Verif.Libc.Model
import Verif.Str.Model

/-!
# Model of the Landsat metadata reader (meta-ll.c)

The text of the metadata file is a list of characters. libc `atof`, with the conversion to
`float` that follows it, is the parameter `num`; GDAL is not modelled. `return FAILURE` and
`exit(1)` both end the processing of the image and are the outcome `exit`; a dereferenced
NULL pointer is the outcome `ub`.
-/

namespace Verif.Meta

open Verif.Libc Verif.Str

/-- Characters of a string literal. -/
abbrev ch (s : String) : List Char := s.toList

/-- meta-ll.c:136 `cal->fill` (SHRT_MIN); meta-ll.c:79 `meta->fill`. -/
def fill : ℚ := -32768

/-- meta-ll.h:45-54 `cal_t`, as initialised by meta-ll.c:128-146. The file name "NULL" is
`none`; `coef t` is the coefficient that parse_metadata_band (meta-ll.c:1226) knows as type
`t`: 1 lmax, 2 lmin, 3 qmax, 4 qmin, 5 rmul, 6 radd, 7 k1, 8 k2. The band's domain is stored
here instead of in the image. -/
structure Cal where
  band : String
  domain : String
  fname : Option (List Char) := none
  coef : Nat → ℚ := fun _ => fill

/-- The parts of `meta_t`, of the Digital Number image and of the local variables of
parse_metadata_landsat (meta-ll.c:268-282) that the reader fills. `craft` says whether the
image was allocated (`DN != NULL`). -/
structure St where
  craft : Bool := false
  lid : ℤ := 0
  dtype : ℤ := -32768
  sat : ℤ := -32768
  tier : ℤ := -32768
  cals : List Cal := []
  ncols : Option ℤ := none
  nrows : Option ℤ := none
  res : Option ℤ := none
  ulx : Option ℚ := none
  uly : Option ℚ := none
  path : ℤ := 0
  row : ℤ := 0
  ymd : Option (ℤ × ℤ × ℤ) := none
  hms : Option (ℤ × ℤ × ℤ) := none

/-- meta-ll.c:275 `separator`. -/
def sep (c : Char) : Bool := c = ' ' ∨ c = '=' ∨ c = '"' ∨ c = ':'

/-- meta-ll.c:276 `separator2`. -/
def sepDate (c : Char) : Bool := c = '-'

/-- The branches of meta-ll.c:313-556; `coefs t` are the calls of parse_metadata_band with
type `t`. -/
inductive Kind where
  | craft | file | product | category | ncols | nrows | res | ulx | uly | path | row | date
  | time | coefs (t : Nat) | other
deriving DecidableEq, Repr

/-- meta-ll.c:313-556: the branch taken for a tag. -/
def kind (tag : List Char) : Kind :=
  if tag = ch "SPACECRAFT_ID" then .craft
  else if ch "FILE_NAME" <:+: tag then .file
  else if tag = ch "DATA_TYPE" ∨ tag = ch "PRODUCT_TYPE" then .product
  else if tag = ch "COLLECTION_CATEGORY" then .category
  else if tag = ch "PRODUCT_SAMPLES_REF" ∨ tag = ch "REFLECTIVE_SAMPLES" then .ncols
  else if tag = ch "PRODUCT_LINES_REF" ∨ tag = ch "REFLECTIVE_LINES" then .nrows
  else if tag = ch "GRID_CELL_SIZE_REF" ∨ tag = ch "GRID_CELL_SIZE_REFLECTIVE" then .res
  else if tag = ch "PRODUCT_UL_CORNER_MAPX" ∨ tag = ch "CORNER_UL_PROJECTION_X_PRODUCT" then .ulx
  else if tag = ch "PRODUCT_UL_CORNER_MAPY" ∨ tag = ch "CORNER_UL_PROJECTION_Y_PRODUCT" then .uly
  else if tag = ch "WRS_PATH" then .path
  else if tag = ch "WRS_ROW" ∨ tag = ch "STARTING_ROW" then .row
  else if tag = ch "ACQUISITION_DATE" ∨ tag = ch "DATE_ACQUIRED" then .date
  else if tag = ch "SCENE_CENTER_TIME" ∨ tag = ch "SCENE_CENTER_SCAN_TIME" then .time
  else if ¬ 'Q' ∈ tag ∧ (ch "LMAX_" <:+: tag ∨ ch "RADIANCE_MAXIMUM_" <:+: tag) then .coefs 1
  else if ¬ 'Q' ∈ tag ∧ (ch "LMIN_" <:+: tag ∨ ch "RADIANCE_MINIMUM_" <:+: tag) then .coefs 2
  else if ch "QCALMAX_" <:+: tag ∨ ch "QUANTIZE_CAL_MAX_" <:+: tag then .coefs 3
  else if ch "QCALMIN_" <:+: tag ∨ ch "QUANTIZE_CAL_MIN_" <:+: tag then .coefs 4
  else if ch "REFLECTANCE_MULT_" <:+: tag then .coefs 5
  else if ch "REFLECTANCE_ADD_" <:+: tag then .coefs 6
  else if ch "K1_CONSTANT_" <:+: tag then .coefs 7
  else if ch "K2_CONSTANT_" <:+: tag then .coefs 8
  else .other

/-- meta-ll.c:364-455: band names and domains, in the order of the image. -/
def bandTable (lid : ℤ) : List (String × String) :=
  if 8 ≤ lid then
    [("1", "ULTRABLUE"), ("2", "BLUE"), ("3", "GREEN"), ("4", "RED"), ("5", "NIR"),
     ("9", "CIRRUS"), ("6", "SWIR1"), ("7", "SWIR2"), ("10", "TEMP")]
  else
    [("1", "BLUE"), ("2", "GREEN"), ("3", "RED"), ("4", "NIR"), ("5", "SWIR1"),
     ("7", "SWIR2"), ("6", "TEMP")]

/-- meta-ll.c:1232-1238: the endings `add1`, `add2`. -/
def adds (lid : ℤ) (band : String) : String × String :=
  if lid = 7 ∧ band = "6" then ("_VCID_1", "1") else ("", "")

/-- meta-ll.c:1240-1338: the tags that give the value of a type for a band. -/
def bandTags (lid : ℤ) (band : String) (t : Nat) : List (List Char) :=
  let a := adds lid band
  match t with
  | 0 => [ch "FILE_NAME_BAND_" ++ ch band ++ ch a.1, ch "BAND" ++ ch band ++ ch a.2 ++ ch "_FILE_NAME"]
  | 1 => [ch "RADIANCE_MAXIMUM_BAND_" ++ ch band ++ ch a.1, ch "LMAX_BAND" ++ ch band ++ ch a.2]
  | 2 => [ch "RADIANCE_MINIMUM_BAND_" ++ ch band ++ ch a.1, ch "LMIN_BAND" ++ ch band ++ ch a.2]
  | 3 => [ch "QUANTIZE_CAL_MAX_BAND_" ++ ch band ++ ch a.1, ch "QCALMAX_BAND" ++ ch band ++ ch a.2]
  | 4 => [ch "QUANTIZE_CAL_MIN_BAND_" ++ ch band ++ ch a.1, ch "QCALMIN_BAND" ++ ch band ++ ch a.2]
  | 5 => [ch "REFLECTANCE_MULT_BAND_" ++ ch band ++ ch a.1]
  | 6 => [ch "REFLECTANCE_ADD_BAND_" ++ ch band ++ ch a.1]
  | 7 => [ch "K1_CONSTANT_BAND_" ++ ch band ++ ch a.1]
  | 8 => [ch "K2_CONSTANT_BAND_" ++ ch band ++ ch a.1]
  | _ => []

/-- meta-ll.c:1226-1341 `parse_metadata_band`: a value is stored if the tag is one of the
band's and nothing was stored before. -/
def setBand (num : List Char → ℚ) (d tag : List Char) (value : Option (List Char)) (lid : ℤ)
    (t : Nat) (cal : Cal) : Out Cal :=
  if t = 0 then
    if cal.fname = none ∧ tag ∈ bandTags lid cal.band 0 then
      match value with
      | none => .ub
      | some v =>
        if d.length + 1 + v.length ≥ 1024 then .exit
        else .ok { cal with fname := some (d ++ '/' :: v) }
    else .ok cal
  else if cal.coef t = fill ∧ tag ∈ bandTags lid cal.band t then
    match value with
    | none => .ub
    | some v => .ok { cal with coef := fun u => if u = t then num v else cal.coef u }
  else .ok cal

/-- Sequential calls over a list. -/
def mapOut {α β : Type} (f : α → Out β) : List α → Out (List β)
  | [] => .ok []
  | a :: l => (f a).bind fun b => (mapOut f l).bind fun bs => .ok (b :: bs)

/-- The bands for which a type is read: all (meta-ll.c:463-464, 526-538), all but the thermal
band (meta-ll.c:540-547), only the thermal band (meta-ll.c:549-551). -/
def applies (t : Nat) (cal : Cal) : Bool :=
  if t ≤ 4 then true else if t ≤ 6 then cal.domain ≠ "TEMP" else cal.domain = "TEMP"

/-- The loops of meta-ll.c:463-464 and 526-551. Before the satellite is known there are no
bands; the thermal band is then a NULL pointer. -/
def setBands (num : List Char → ℚ) (d tag : List Char) (value : Option (List Char)) (t : Nat)
    (st : St) : Out St :=
  if 7 ≤ t ∧ st.craft = false then .ub
  else
    (mapOut (fun cal => if applies t cal then setBand num d tag value st.lid t cal else .ok cal)
      st.cals).bind fun cals => .ok { st with cals := cals }

/-- A library call with a string that may be NULL. -/
def need {α : Type} (v : Option (List Char)) (f : List Char → Out α) : Out α :=
  match v with
  | none => .ub
  | some s => f s

/-- A setter of the Digital Number image; the image may not be allocated yet. -/
def withImage (st st' : St) : Out St := if st.craft then .ok st' else .ub

/-- meta-ll.c:313-455: the satellite; sets data type, saturation value and the bands. -/
def setCraft (st : St) (v : List Char) : Out St :=
  let lid := atoi (v.drop (v.length - 1))
  if lid = 4 ∨ lid = 5 ∨ lid = 7 ∨ lid = 8 ∨ lid = 9 then
    .ok { st with
      craft := true
      lid := lid
      dtype := if 8 ≤ lid then 16 else 8
      sat := if 8 ≤ lid then 65535 else 255
      cals := (bandTable lid).map fun b => { band := b.1, domain := b.2 } }
  else .exit

/-- meta-ll.c:310-556: one round of the token loop. Returns the new state, the token that
becomes the next tag, and the rest of the line. -/
def handle (num : List Char → ℚ) (d : List Char) (st : St) (tag : List Char)
    (v : Option (List Char)) (rest : List Char) : Out (St × Option (List Char) × List Char) :=
  let keep (o : Out St) : Out (St × Option (List Char) × List Char) :=
    o.bind fun st' => .ok (st', v, rest)
  match kind tag with
  | .craft => keep (need v (setCraft st))
  | .file => keep (setBands num d tag v 0 st)
  | .product => keep (need v fun s => .ok { st with tier := if ch "L1T" <:+: s ∨ ch "L1TP" <:+: s then 1 else 2 })
  | .category => keep (need v fun s =>
      let st1 := if ch "T2" <:+: s then { st with tier := 2 } else st
      .ok (if ch "RT" <:+: s then { st1 with tier := 3 } else st1))
  | .ncols => keep (need v fun s => withImage st { st with ncols := some (atoi s) })
  | .nrows => keep (need v fun s => withImage st { st with nrows := some (atoi s) })
  | .res => keep (need v fun s => withImage st { st with res := some (atoi s) })
  | .ulx => keep (need v fun s => withImage st { st with ulx := some (num s - 15) })
  | .uly => keep (need v fun s => withImage st { st with uly := some (num s + 15) })
  | .path => keep (need v fun s => .ok { st with path := atoi s })
  | .row => keep (need v fun s => .ok { st with row := atoi s })
  | .date => need v fun s =>
      match strtok sepDate s with
      | none => .ub
      | some (y, r1) =>
        match strtok sepDate r1 with
        | none => .ub
        | some (m, r2) =>
          match strtok sepDate r2 with
          | none => .ub
          | some (dd, r3) =>
            .ok ({ st with ymd := some (atoi y, atoi m, atoi dd) },
              some (s.takeWhile sepDate ++ y), r3)
  | .time => need v fun s =>
      match strtok sep rest with
      | none => .ub
      | some (m, r1) =>
        match strtok sep r1 with
        | none => .ub
        | some (ss, r2) => .ok ({ st with hms := some (atoi s, atoi m, atoi ss) }, some ss, r2)
  | .coefs t => keep (setBands num d tag v t st)
  | .other => keep (.ok st)

/-- meta-ll.c:307-560: the token loop of a line; every round takes at least one character
of the line, so a bound on the number of rounds that exceeds the length is not reached. -/
def tokenLoop (num : List Char → ℚ) (d : List Char) : Nat → St → List Char → List Char → Out St
  | 0, st, _, _ => .ok st
  | n + 1, st, tag, rest =>
    (match strtok sep rest with
     | none => handle num d st tag none []
     | some (v, r) => handle num d st tag (some v) r).bind fun x =>
      match x.2.1 with
      | none => .ok x.1
      | some t => tokenLoop num d n x.1 t x.2.2

/-- meta-ll.c:298-560: one line. -/
def lineStep (num : List Char → ℚ) (d : List Char) (st : St) (buffer : List Char) : Out St :=
  match strtok sep buffer with
  | none => .ok st
  | some (tag, rest) => tokenLoop num d (buffer.length + 1) st tag rest

/-- meta-ll.c:298-560: the lines up to the one that ends the metadata. -/
def readLines (num : List Char → ℚ) (d : List Char) : St → List (List Char) → Out St
  | st, [] => .ok st
  | st, l :: ls =>
    if ch "END_GROUP = L1_METADATA_FILE" <:+: l then .ok st
    else (lineStep num d st l).bind fun st' => readLines num d st' ls

/-- meta-ll.c:607-618: thermal constants of satellites whose metadata do not have them. -/
def defaults (num : List Char → ℚ) (lid : ℤ) (t : Nat) : ℚ :=
  match t with
  | 7 => if lid = 7 then num (ch "666.09") else if lid = 5 then num (ch "607.76")
         else if lid = 4 then num (ch "671.62") else fill
  | 8 => if lid = 7 then num (ch "1282.71") else if lid = 5 then num (ch "1260.56")
         else if lid = 4 then num (ch "1284.30") else fill
  | _ => fill

/-- meta-ll.c:607-618. -/
def fillThermal (num : List Char → ℚ) (lid : ℤ) (cal : Cal) : Cal :=
  if cal.domain = "TEMP" then
    { cal with coef := fun t => if (t = 7 ∨ t = 8) ∧ cal.coef t = fill then defaults num lid t
                                else cal.coef t }
  else cal

/-- meta-ll.c:203-215: the test of one band. Line 206 tests `lmax` twice, `lmin` not at all. -/
def bandOk (cal : Cal) : Bool :=
  cal.fname ≠ none ∧ cal.coef 1 ≠ fill ∧ cal.coef 1 ≠ fill ∧ cal.coef 3 ≠ fill ∧ cal.coef 4 ≠ fill ∧
    (cal.domain ≠ "TEMP" → cal.coef 5 ≠ fill) ∧ (cal.domain ≠ "TEMP" → cal.coef 6 ≠ fill) ∧
    (cal.domain = "TEMP" → cal.coef 7 ≠ fill ∧ cal.coef 8 ≠ fill)

/-- meta-ll.c:159-224 `check_metadata`; a refused image ends the program (meta-ll.c:626). -/
def check (maxTier : ℤ) (st : St) : Out St :=
  if st.dtype = -32768 ∨ st.sat = -32768 then .exit
  else if st.tier > maxTier then .exit
  else if ∀ cal ∈ st.cals, bandOk cal then .ok st else .exit

/-- meta-ll.c:267-630 `parse_metadata_landsat` after the file was found: `d` is the
directory of the image, `maxTier` the worst tier the user accepts. The projection is read by
GDAL from the first band's file (meta-ll.c:573), which is assumed to work if the name is
known. -/
def parseLandsat (num : List Char → ℚ) (d : List Char) (maxTier : ℤ) (text : List Char) : Out St :=
  (readLines num d {} (fgetsAll 1024 text)).bind fun st =>
    if st.craft = false then .ub
    else check maxTier { st with cals := st.cals.map (fillThermal num st.lid) }

end Verif.Meta
