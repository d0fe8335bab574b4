import Mathlib.Data.Rat.Floor
import Mathlib.Data.List.Infix

/-!
# What a Landsat metadata file says

Independent of the reader: the lines of a metadata file, and the value a file gives for a
tag.
-/

namespace Verif.Meta.Spec

/-- A line of a metadata file. -/
inductive Line where
  /-- `TAG = VALUE` or `TAG = "VALUE"`, indented. -/
  | entry (indent : Nat) (tag value : List Char) (quoted : Bool)
  /-- `TAG = 2015-03-07`, the parts given as text. -/
  | date (indent : Nat) (tag y m d : List Char)
  /-- `TAG = "10:21:56.3Z"`, the parts given as text. -/
  | clock (indent : Nat) (tag h m s : List Char)
  /-- Any other text. -/
  | other (text : List Char)

/-- Text of a line without the line end. -/
def Line.text : Line → List Char
  | .entry n t v q =>
    List.replicate n ' ' ++ t ++ " = ".toList ++ (if q then '"' :: v ++ ['"'] else v)
  | .date n t y m d => List.replicate n ' ' ++ t ++ " = ".toList ++ (y ++ '-' :: m ++ '-' :: d)
  | .clock n t h m s =>
    List.replicate n ' ' ++ t ++ " = ".toList ++ ('"' :: h ++ ':' :: m ++ ':' :: s ++ ['"'])
  | .other x => x

/-- Text of a file: the lines, and possibly the mark that ends the metadata followed by
anything. -/
def fileText (ls : List Line) (tail : Option (List Char)) : List Char :=
  ls.flatMap (fun l => l.text ++ ['\n']) ++
    match tail with
    | none => []
    | some x => "END_GROUP = L1_METADATA_FILE".toList ++ '\n' :: x

/-- Words with a meaning in a metadata file. -/
def keywords : List String :=
  ["SPACECRAFT_ID", "FILE_NAME", "DATA_TYPE", "PRODUCT_TYPE", "COLLECTION_CATEGORY",
   "PRODUCT_SAMPLES_REF", "REFLECTIVE_SAMPLES", "PRODUCT_LINES_REF", "REFLECTIVE_LINES",
   "GRID_CELL_SIZE_REF", "GRID_CELL_SIZE_REFLECTIVE", "PRODUCT_UL_CORNER_MAPX",
   "CORNER_UL_PROJECTION_X_PRODUCT", "PRODUCT_UL_CORNER_MAPY",
   "CORNER_UL_PROJECTION_Y_PRODUCT", "WRS_PATH", "WRS_ROW", "STARTING_ROW",
   "ACQUISITION_DATE", "DATE_ACQUIRED", "SCENE_CENTER_TIME", "SCENE_CENTER_SCAN_TIME",
   "LMAX_", "RADIANCE_MAXIMUM_", "LMIN_", "RADIANCE_MINIMUM_", "QCALMAX_",
   "QUANTIZE_CAL_MAX_", "QCALMIN_", "QUANTIZE_CAL_MIN_", "REFLECTANCE_MULT_",
   "REFLECTANCE_ADD_", "K1_CONSTANT_", "K2_CONSTANT_"]

/-- No word with a meaning occurs in a text. -/
def Plain (x : List Char) : Prop := ∀ k ∈ keywords, ¬ k.toList <:+: x

/-- A text without blanks, equal signs, quotation marks, colons and line ends. -/
def Word (x : List Char) : Prop :=
  x ≠ [] ∧ ∀ c ∈ x, c ≠ ' ' ∧ c ≠ '=' ∧ c ≠ '"' ∧ c ≠ ':' ∧ c ≠ '\n'

/-- The lines of a well-formed file: they fit the line buffer, are not the end mark, tags
and values are words, and values are not words with a meaning themselves. -/
def Good (l : Line) : Prop :=
  l.text.length < 1022 ∧ ¬ "END_GROUP = L1_METADATA_FILE".toList <:+: l.text ∧
  match l with
  | .entry _ t v _ => Word t ∧ Word v ∧ Plain v ∧
      t ≠ "ACQUISITION_DATE".toList ∧ t ≠ "DATE_ACQUIRED".toList ∧
      t ≠ "SCENE_CENTER_TIME".toList ∧ t ≠ "SCENE_CENTER_SCAN_TIME".toList
  | .date _ t y m d => (t = "ACQUISITION_DATE".toList ∨ t = "DATE_ACQUIRED".toList) ∧
      (∀ x ∈ [y, m, d], x ≠ [] ∧ ∀ c ∈ x, c.isDigit = true)
  | .clock _ t h m s => (t = "SCENE_CENTER_TIME".toList ∨ t = "SCENE_CENTER_SCAN_TIME".toList) ∧
      Word h ∧ Word m ∧ Word s ∧ Plain s
  | .other x => '\n' ∉ x ∧ Plain x

/-- The value of the first entry with one of the tags. -/
def firstValue (tags : List String) : List Line → Option (List Char)
  | [] => none
  | .entry _ t v _ :: ls =>
    if ∃ k ∈ tags, t = k.toList then some v else firstValue tags ls
  | _ :: ls => firstValue tags ls

/-- The value of the last entry with one of the tags. -/
def lastValue (tags : List String) (ls : List Line) : Option (List Char) :=
  firstValue tags ls.reverse

/-- A line that has one of the tags. -/
def hasTag (tags : List String) : Line → Prop
  | .entry _ t _ _ => ∃ k ∈ tags, t = k.toList
  | _ => False

instance (tags : List String) : DecidablePred (hasTag tags) := fun l => by
  cases l <;> unfold hasTag <;> infer_instance

/-- Bands of the sensors: name in the metadata and spectral domain. -/
def bands : ℕ → List (String × String)
  | 4 | 5 | 7 => [("1", "BLUE"), ("2", "GREEN"), ("3", "RED"), ("4", "NIR"), ("5", "SWIR1"),
      ("7", "SWIR2"), ("6", "TEMP")]
  | 8 | 9 => [("1", "ULTRABLUE"), ("2", "BLUE"), ("3", "GREEN"), ("4", "RED"), ("5", "NIR"),
      ("9", "CIRRUS"), ("6", "SWIR1"), ("7", "SWIR2"), ("10", "TEMP")]
  | _ => []

/-- The quantities of a band. -/
inductive Quantity where
  | lmax | lmin | qmax | qmin | rmul | radd | k1 | k2
deriving DecidableEq, Repr

/-- Tags of a band's quantity in the newer and in the older form of the metadata. The
thermal band of Landsat 7 is used in its low gain state. -/
def tags (lid : ℕ) (band : String) (q : Quantity) : List String :=
  let low := if lid = 7 ∧ band = "6" then "_VCID_1" else ""
  let old := if lid = 7 ∧ band = "6" then "1" else ""
  match q with
  | .lmax => ["RADIANCE_MAXIMUM_BAND_" ++ band ++ low, "LMAX_BAND" ++ band ++ old]
  | .lmin => ["RADIANCE_MINIMUM_BAND_" ++ band ++ low, "LMIN_BAND" ++ band ++ old]
  | .qmax => ["QUANTIZE_CAL_MAX_BAND_" ++ band ++ low, "QCALMAX_BAND" ++ band ++ old]
  | .qmin => ["QUANTIZE_CAL_MIN_BAND_" ++ band ++ low, "QCALMIN_BAND" ++ band ++ old]
  | .rmul => ["REFLECTANCE_MULT_BAND_" ++ band ++ low]
  | .radd => ["REFLECTANCE_ADD_BAND_" ++ band ++ low]
  | .k1 => ["K1_CONSTANT_BAND_" ++ band ++ low]
  | .k2 => ["K2_CONSTANT_BAND_" ++ band ++ low]

/-- Tags of a band's file name. -/
def fileTags (lid : ℕ) (band : String) : List String :=
  let low := if lid = 7 ∧ band = "6" then "_VCID_1" else ""
  let old := if lid = 7 ∧ band = "6" then "1" else ""
  ["FILE_NAME_BAND_" ++ band ++ low, "BAND" ++ band ++ old ++ "_FILE_NAME"]

/-- Quantities a band needs. -/
def needed (domain : String) : List Quantity :=
  if domain = "TEMP" then [.lmax, .lmin, .qmax, .qmin, .k1, .k2]
  else [.lmax, .lmin, .qmax, .qmin, .rmul, .radd]

/-- Thermal constants known for the older satellites. -/
def known (lid : ℕ) : Quantity → Option String
  | .k1 => if lid = 4 then some "671.62" else if lid = 5 then some "607.76"
           else if lid = 7 then some "666.09" else none
  | .k2 => if lid = 4 then some "1284.30" else if lid = 5 then some "1260.56"
           else if lid = 7 then some "1282.71" else none
  | _ => none

/-- The tags of the minimum radiance of all bands. -/
def minimumTags (lid : ℕ) : List String := (bands lid).flatMap fun b => tags lid b.1 .lmin

/-- The lines other than those with the minimum radiance of a band. -/
def withoutMinimum (lid : ℕ) (ls : List Line) : List Line :=
  ls.filter fun l => ¬ hasTag (minimumTags lid) l

end Verif.Meta.Spec
