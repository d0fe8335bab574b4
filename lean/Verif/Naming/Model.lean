import Verif.Tsa.Model

/-!
# Names of the files of the higher level products

Models the names that `compile_level3`, `compile_cso`, `compile_ml`, `compile_txt`, `compile_lsm`, `compile_lib`,
`compile_cfi`, `compile_l2i` and `compile_udf` (with the `compile_*_brick` they use) in `src/modules/higher-level` give to
products and bands, and the files `write_brick` in `src/modules/cross-level/brick_io-cl.cpp` writes. The time series
products are C204.

Simplifications: names fit into their buffers (a longer one is C29); all bands are saved, as the code requests; names of
features, models, libraries and fields are names without directory, as the parser requires. The number of a percentile is
printed from a float 100 k / 100, which rounds to k. -/

namespace Verif.Naming

/-- What all products of a run have in common: directory, tile, `OUTPUT_SUBFOLDERS`, `OUTPUT_EXPLODE`, extension. -/
structure Run where
  dir : List Char
  tx : Int
  ty : Int
  subfolders : Bool
  explode : Bool
  ext : List Char

/-- A product: its name; whether it knows sub-folders; its file name; whether it is exploded; its bands. -/
structure Product where
  name : List Char
  folder : Bool
  stem : List Char
  explode : Bool
  bands : List (List Char)

/-- dir-cl.c:248-258 `basename_without_ext` for a name without directory: everything before the first dot. -/
def base (name : List Char) : List Char := name.takeWhile (· ≠ '.')

/-- level3-hl.c:176-187 and its copies cso-hl.c:153-164, ml-hl.c:155-166, texture-hl.c:134-145, lsm-hl.c:133-144,
lib-hl.c:128-139, cf-improphe-hl.c:127-138, udf-hl.c:164-175; without sub-folder l2-improphe-hl.c:114-118. -/
def dirName (r : Run) (p : Product) : List Char :=
  r.dir ++ '/' :: 'X' :: (Libc.fmtInt0 4 r.tx ++ '_' :: 'Y' :: (Libc.fmtInt0 4 r.ty ++
    if p.folder then '/' :: (if r.subfolders then p.name else []) else []))

/-- brick_io-cl.cpp:241-248: the file of a band, or of all bands. -/
def file (r : Run) (p : Product) (band : Option (List Char)) : List Char :=
  dirName r p ++ '/' :: (p.stem ++ ((match band with | none => [] | some b => '_' :: b) ++ '.' :: r.ext))

/-- brick_io-cl.cpp:124-130, 239: the files of a product. -/
def files (r : Run) (p : Product) : List (List Char) :=
  if p.explode then p.bands.map fun b => file r p (some b) else [file r p none]

/-- Products that are enabled. -/
def enabled {α : Type} (l : List (Bool × α)) : List α := (l.filter (·.1)).map (·.2)

/-- enum-cl.c:174-176: names of the bands. -/
def infTags : List (List Char) := ["QAI", "NUM", "DOY", "YEAR", "dDOY", "SENSOR"].map String.toList
/-- enum-cl.c:169-172. -/
def scrTags : List (List Char) := ["TOTAL", "DOY", "YEAR", "DISTANCE", "HAZE", "CORREL", "VZEN"].map String.toList
/-- enum-cl.c:181-182. -/
def rgbTags : List (List Char) := ["RED", "GREEN", "BLUE"].map String.toList

/-- level3-hl.c:45-106, 190-204; `out`: `obap`, `oinf`, `oscr`, `oovv`; `ard`: band names of the input. -/
def level3 (r : Run) (y m d : Int) (target : List Char) (out : Bool × Bool × Bool × Bool) (ard : List (List Char)) :
    List Product :=
  let pre := Tsa.compact y m d ++ ("_LEVEL3_".toList ++ (target ++ ['_']))
  enabled [
    (out.1, ⟨"BAP".toList, true, pre ++ "BAP".toList, false, ard⟩),
    (out.2.1, ⟨"INF".toList, true, pre ++ "INF".toList, r.explode, infTags⟩),
    (out.2.2.1, ⟨"SCR".toList, true, pre ++ "SCR".toList, r.explode, scrTags⟩),
    (out.2.2.2, ⟨"OVV".toList, true, pre ++ "OVV".toList, false, rgbTags⟩)]

/-- enum-cl.c:59-86: the statistics. -/
inductive Stat where
  | num | min | max | rng | iqr | avg | std | skw | krt
  | q (k : Fin 100)
deriving DecidableEq

/-- cso-hl.c:62-75: names; a percentile is printed with two digits. -/
def statName : Stat → List Char
  | .num => "NUM".toList
  | .min => "MIN".toList
  | .max => "MAX".toList
  | .rng => "RNG".toList
  | .iqr => "IQR".toList
  | .avg => "AVG".toList
  | .std => "STD".toList
  | .skw => "SKW".toList
  | .krt => "KRT".toList
  | .q k => 'Q' :: Libc.fmtInt0 2 k.val

/-- param-hl.c:591-633 `parse_sta`: the index stored for a statistic is the last one; that of `NUM` is not reset and is 0 if
it is not requested. -/
def index (metrics : List Stat) (k : Stat) : Option Nat :=
  match (metrics.zipIdx.filter (·.1 = k)).getLast? with
  | some x => some x.2
  | none => if k = .num then some 0 else none

/-- cso-hl.c:62-75: the name of product `i`: the last one that is copied there; `none`: no name is copied there. -/
def csoName (metrics : List Stat) (i : Nat) : Option (List Char) :=
  match metrics[i]? with
  | some (.q k) => some (statName (.q k))
  | _ => (([.num, .min, .max, .rng, .iqr, .avg, .std, .skw, .krt] : List Stat).filter
      fun k => decide (index metrics k = some i)).getLast?.map statName

/-- cso-hl.c:93-110: the bands are named after the first day of `n` windows. -/
def csoBands (step : Int) : Nat → Int → Int → List (List Char)
  | 0, _, _ => []
  | n + 1, y, m =>
    let c := if m > 12 then (y + 1, m - 12) else (y, m)
    Tsa.compact c.1 c.2 1 :: csoBands step n c.1 (c.2 + step)

/-- The period of cso-hl.c:167-170 and udf-hl.c:178-181: years and days of the year. -/
structure Period where
  y0 : Int
  y1 : Int
  d0 : Int
  d1 : Int

/-- `"%04d-%04d_%03d-%03d"`. -/
def Period.text (p : Period) : List Char :=
  Libc.fmtInt0 4 p.y0 ++ '-' :: (Libc.fmtInt0 4 p.y1 ++ '_' :: (Libc.fmtInt0 3 p.d0 ++ '-' :: Libc.fmtInt0 3 p.d1))

/-- cso-hl.c:47-127, 167-188; `none`: a name is used that has not been set. `month`: the first month, `nw`: number of
windows. -/
def cso (r : Run) (p : Period) (step : Int) (target : List Char) (metrics : List Stat) (month : Int) (nw : Nat) :
    Option (List Product) :=
  let pre := p.text ++ '-' :: (Libc.fmtInt0 2 step ++ ("_HL_CSO_".toList ++ (target ++ ['_'])))
  (List.range metrics.length).mapM fun i =>
    (csoName metrics i).map fun n => ⟨n, true, pre ++ n, r.explode, csoBands step nw p.y0 month⟩

/-- ml-hl.c:49-130, 169-185; `out`: `omlp`, `omli`, `omlu`, `orfp`, `orfm`; `sets`: the first model and the number of
classes of the model sets. -/
def ml (r : Run) (name : List Char) (out : Bool × Bool × Bool × Bool × Bool) (sets : List (List Char × Nat)) :
    List Product :=
  let pre := name ++ "_HL_ML_".toList
  let set := sets.map fun s => base s.1
  let setclass := sets.flatMap fun s => List.replicate s.2 (base s.1)
  enabled [
    (out.1, ⟨"MLP".toList, true, pre ++ "MLP".toList, r.explode, set⟩),
    (out.2.1, ⟨"MLI".toList, true, pre ++ "MLI".toList, r.explode, set⟩),
    (out.2.2.1, ⟨"MLU".toList, true, pre ++ "MLU".toList, r.explode, set⟩),
    (out.2.2.2.1, ⟨"RFP".toList, true, pre ++ "RFP".toList, r.explode, setclass⟩),
    (out.2.2.2.2, ⟨"RFM".toList, true, pre ++ "RFM".toList, r.explode, set⟩)]

/-- texture-hl.c:79-90, lsm-hl.c:80-91: the band of a feature, `"%s_B%04d"`. -/
def featureBand (f : List Char × Int) : List Char := base f.1 ++ '_' :: 'B' :: Libc.fmtInt0 4 f.2

/-- texture-hl.c:58. -/
def txtNames : List (List Char) := ["ERO", "DIL", "OPN", "CLS", "GRD", "THT", "BHT"].map String.toList
/-- lsm-hl.c:59. -/
def lsmNames : List (List Char) :=
  ["MPA", "UCI", "FDI", "EDD", "NBR", "EMS", "AVG", "STD", "GEO", "MAX", "ARE"].map String.toList

/-- texture-hl.c:49-109, 148-165 (`tag` `"_HL_TXT_"`) and lsm-hl.c:50-109, 147-164 (`"_HL_LSM_"`): `out`: whether a product
is requested. -/
def featured (r : Run) (name tag : List Char) (names : List (List Char)) (out : List Char → Bool)
    (features : List (List Char × Int)) : List Product :=
  enabled (names.map fun n => (out n, ⟨n, true, name ++ tag ++ n, r.explode, features.map featureBand⟩))

/-- lib-hl.c:45-104, 142-159. The tag is that of the landscape metrics. -/
def lib (r : Run) (name : List Char) (libs : List (List Char)) : List Product :=
  [⟨"MAE".toList, true, name ++ "_HL_LSM_".toList ++ "MAE".toList, r.explode,
    libs.map base ++ ["LIBRARY-SUMMARY".toList]⟩]

/-- cf-improphe-hl.c:46-102, 142-159. -/
def cfi (r : Run) (fields : List (List Char)) (years : List Int) : List Product :=
  fields.map fun f => ⟨"IMP".toList, true, base f ++ '_' :: "IMP".toList, r.explode,
    years.map fun y => "YEAR-".toList ++ Libc.fmtInt0 4 y⟩

/-- A date and a sensor. -/
structure Shot where
  y : Int
  m : Int
  d : Int
  sensor : List Char

/-- l2-improphe-hl.c:46-84, 110-112, 121-137: the medium resolution images; their bands. -/
def l2i (r : Run) (images : List Shot) (bands : List (List Char)) : List Product :=
  images.map fun i => ⟨"IMP".toList, false,
    Tsa.compact i.y i.m i.d ++ ("_LEVEL2_".toList ++ (i.sensor ++ '_' :: "IMP".toList)), r.explode, bands⟩

/-- udf-hl.c:48-76, 91-139, 178-202: the products of python and R; their bands. -/
def udf (r : Run) (p : Period) (target : List Char) (py rs : Bool × List (List Char)) : List Product :=
  let pre := p.text ++ ("_HL_UDF_".toList ++ (target ++ ['_']))
  enabled [
    (py.1, ⟨"PYP".toList, true, pre ++ "PYP".toList, r.explode, py.2⟩),
    (rs.1, ⟨"RSP".toList, true, pre ++ "RSP".toList, r.explode, rs.2⟩)]

end Verif.Naming
