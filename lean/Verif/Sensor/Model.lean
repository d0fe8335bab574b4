import Mathlib.Data.Nat.Notation
import Verif.Str.Model

/-!
# Model of the sensor and index configuration

`src/modules/higher-level/sensor-hl.c`, `src/modules/higher-level/index-parse-hl.c`, the dispatch of
`src/modules/higher-level/index-compute-hl.c` and the bands that
`src/modules/higher-level/read-ard-hl.c` reads from disc.

Simplifications: texts are `String` and their length is their number of characters; the JSON library
is external, a document is given as the value it parses to, and only the members the code asks for
are kept. Error messages are not modelled. Memory that is allocated with a length is a list of that
length; an access behind its end is undefined behaviour.
-/

namespace Verif.Sensor

open Verif.Str (Out)

/-- A JSON value, as far as the code distinguishes it (`json_is_string`, `json_is_integer`,
`json_is_array`). -/
inductive J where
  | str (s : String)
  | int (n : Int)
  | arr (l : List J)
  | other

/-- The members of a sensor definition file the code reads (`json_object_get`); `none`: missing. -/
structure SensorDef where
  name : Option J
  bands : Option J
  bandNames : Option J

/-- string-cl.c:42-51 `copy_string` into one of the buffers of 1024 bytes used throughout. -/
def copy (s : String) : Out String := if s.length < 1024 then .ok s else .exit

/-- string-cl.c:270-279 `vector_contains`. -/
def contains : List String → String → Bool
  | [], _ => false
  | v :: vs, x => if v = x then true else contains vs x

/-- string-cl.c:290-299 `vector_contains_pos`. -/
def pos : List String → String → Int → Int
  | [], _, _ => -1
  | v :: vs, x, i => if v = x then i else pos vs x (i + 1)

/-- sensor-hl.c:64-82 `get_sensor_name`; `ok none` is FAILURE. -/
def getName (d : SensorDef) : Out (Option String) :=
  match d.name with
  | some (.str s) => (copy s).bind fun s => .ok (some s)
  | _ => .ok none

/-- Conversion of a 64 bit integer to `int`. -/
def toInt (n : Int) : Int := (n + 2147483648) % 4294967296 - 2147483648

/-- sensor-hl.c:90-109 `get_sensor_band_number`: the value that is left in `*nbands` (0 from the
allocation if nothing is written) and success. -/
def getNumber (d : SensorDef) : Int × Bool :=
  match d.bands with
  | some (.int n) => if toInt n < 1 then (toInt n, false) else (toInt n, true)
  | _ => (0, false)

/-- sensor-hl.c:136-147: the loop over the names. -/
def copyNames : List J → Out (Option (List String))
  | [] => .ok (some [])
  | .str s :: rest => (copy s).bind fun s => (copyNames rest).bind fun r =>
      .ok (r.map fun l => s :: l)
  | _ :: _ => .ok none

/-- sensor-hl.c:119-156 `get_sensor_bandnames`. `alloc_2D` with a negative number asks for almost
2^64 elements and ends the program (alloc-cl.c:38-46). -/
def getNames (n : Int) (d : SensorDef) : Out (Option (List String)) :=
  if n < 0 then .exit
  else match d.bandNames with
    | some (.arr l) => if (l.length : Int) ≠ n then .ok none else copyNames l
    | _ => .ok none

/-- What is known of one sensor after its definition was read: its name and its bands. -/
structure Known where
  name : String
  bands : List String
deriving DecidableEq, Repr

/-- sensor-hl.c:362-393: the loop over the sensors. `cap` is the number of elements of the arrays
`nbands` and `band_names` (347-351); `s` the loop counter, `errors` the error counter. -/
def loadAll (defs : String → Option SensorDef) (cap : Nat) : Nat → List String → Nat →
    List Known → Out (Option (List Known))
  | _, [], errors, acc => if errors > 0 then .ok none else .ok (some acc)
  | s, name :: rest, errors, acc =>
    match defs name with
    | none => loadAll defs cap (s + 1) rest (errors + 1) acc
    | some d =>
      (getName d).bind fun n =>
      if s ≥ cap then .ub
      else
        let nb := getNumber d
        (getNames nb.1 d).bind fun l =>
        match n, nb.2, l with
        | some n, true, some l => loadAll defs cap (s + 1) rest errors (acc ++ [⟨n, l⟩])
        | _, _, _ => loadAll defs cap (s + 1) rest (errors + 1) acc

/-- sensor-hl.c:178-185: the loop over the other sensors; true: the band is in all of them. -/
def inAll (b : String) : List (List String) → Bool
  | [] => true
  | l :: rest => if !contains l b then false else inAll b rest

/-- sensor-hl.c:174-192: the loop over the bands of the first sensor. -/
def pick (rest : List (List String)) : List String → List String
  | [] => []
  | b :: bs => if inAll b rest then b :: pick rest bs else pick rest bs

/-- sensor-hl.c:167-209 `get_band_intersection`; `ok none` is FAILURE. Without a sensor the number of
bands of the first sensor is read behind the end of the array. -/
def bandIntersection : List (List String) → Out (Option (List String))
  | [] => .ub
  | first :: rest =>
    let l := pick rest first
    if l.length < 1 then .ok none else .ok (some l)

/-- sensor-hl.c:229-238: the two loops of `get_band_union`. -/
def unionLoop (buffer : List String) : List String → List String
  | [] => buffer
  | b :: bs => if !contains buffer b then unionLoop (buffer ++ [b]) bs else unionLoop buffer bs

/-- sensor-hl.c:220-255 `get_band_union`. -/
def bandUnion (l : List (List String)) : Out (Option (List String)) :=
  let u := l.foldl unionLoop []
  if u.length < 1 then .ok none else .ok (some u)

/-- sensor-hl.c:264-277 `get_band_numbers_to_read`: 1-based, 0 for a band the sensor does not have. -/
def bandNumbers (bands : List String) (sensors : List (List String)) : List (List Int) :=
  sensors.map fun names => bands.map fun b => pos names b 0 + 1

/-- The sensor parameters `sen_t` after the configuration. -/
structure Sen where
  sensors : List String
  bandNames : List String
  bandNumber : List (List Int)
deriving DecidableEq, Repr

/-- sensor-hl.c:325-330: the bands of the configuration are looked up in the target. -/
def allContained (names : List String) : List String → Bool
  | [] => true
  | b :: bs => if !contains names b then false else allContained names bs

/-- sensor-hl.c:286-335 `check_target_sensor`; true is SUCCESS. The parameter is `none` if no target
was ever set (a null pointer is printed with `%s`). -/
def checkTarget (defs : String → Option SensorDef) (target : Option String) (bands : List String) :
    Out Bool :=
  match target with
  | none => .ub
  | some t =>
    match defs t with
    | none => .ok false
    | some d =>
      (getName d).bind fun n =>
      match n with
      | none => .ok false
      | some _ =>
        let nb := getNumber d
        if !nb.2 then .ok false
        else (getNames nb.1 d).bind fun l =>
          match l with
          | none => .ok false
          | some names =>
            if nb.1 ≠ (bands.length : Int) then .ok false
            else .ok (allContained names bands)

/-- sensor-hl.c:345-449 `retrieve_sensor`; `ok none` is FAILURE. `adjust` is SPECTRAL_ADJUST. -/
def retrieveSensor (defs : String → Option SensorDef) (adjust : Bool) (target : Option String)
    (sensors : List String) : Out (Option Sen) :=
  let cap := sensors.length
  let all := if adjust then sensors ++ ["SEN2A"] else sensors
  (loadAll defs cap 0 all 0 []).bind fun k =>
  match k with
  | none => .ok none
  | some known =>
    (if !adjust then bandIntersection (known.map (·.bands))
      else bandUnion (known.map (·.bands))).bind fun bands =>
    match bands with
    | none => .ok none
    | some bands =>
      let known := if adjust then known.dropLast else known
      let numbers := bandNumbers bands (known.map (·.bands))
      (checkTarget defs target bands).bind fun c =>
      if !c then .ok none
      else .ok (some ⟨known.map (·.name), bands, numbers⟩)

/-! ## Indices -/

/-- enum `_INDEX_TYPE_*`. -/
inductive IType where
  | band | equation | sma
deriving DecidableEq, Repr

/-- index-parse-hl.c:62-103 `get_index_bandnames`. -/
def indexBandnames (defs : String → Option J) (name : String) : Out (Option (List String)) :=
  match defs name with
  | some (.arr l) => copyNames l
  | _ => .ok none

/-- The loop of index-parse-hl.c:133: all band names are copied. -/
def copyAll : List String → Out (List String)
  | [] => .ok []
  | s :: rest => (copy s).bind fun s => (copyAll rest).bind fun r => .ok (s :: r)

/-- index-parse-hl.c:105-156 `get_required_bands`; `none`: error. -/
def requiredBands (defs : String → Option J) (bands : List String) (name : String) :
    Out (Option (IType × List String)) :=
  if contains bands name then (copy name).bind fun n => .ok (some (.band, [n]))
  else if name = "SMA" then (copyAll bands).bind fun l => .ok (some (.sma, l))
  else (indexBandnames defs name).bind fun r => .ok (r.map fun l => (.equation, l))

/-- index-parse-hl.c:166-177: the loop over the available bands; marks the first band with this name.
The second part tells whether there is one. -/
def mark : List String → List Bool → String → List Bool × Bool
  | b :: bs, u :: us, x => if b = x then (true :: us, true)
      else let r := mark bs us x; (u :: r.1, r.2)
  | _, us, _ => (us, false)

/-- index-parse-hl.c:158-188 `check_available_bands`: the marked bands and the number of errors. -/
def checkAvailable (bands : List String) (use : List Bool) : List String → List Bool × Nat
  | [] => (use, 0)
  | r :: rs =>
    let m := mark bands use r
    let c := checkAvailable bands m.1 rs
    (c.1, if m.2 then c.2 else c.2 + 1)

/-- The loops of index-parse-hl.c:213-219: `k` elements from position `i` on are overwritten by
their right neighbours. -/
def shift {α : Type} : Nat → Nat → List α → List α
  | 0, _, l => l
  | k + 1, i, l => shift k (i + 1) (match l[i + 1]? with | some x => l.set i x | none => l)

/-- The loop of index-parse-hl.c:198-226; `b` is `b_available`, `n` is `n_used`. -/
def removeLoop : Nat → Nat → Nat → List Bool → List String → List (List Int) →
    Nat × List String × List (List Int)
  | 0, _, n, _, names, numbers => (n, names, numbers)
  | fuel + 1, b, n, use, names, numbers =>
    if b < n then
      if use[b]?.getD false then removeLoop fuel (b + 1) n use names numbers
      else removeLoop fuel b (n - 1) (shift (n - 1 - b) b use) (shift (n - 1 - b) b names)
        (numbers.map (shift (n - 1 - b) b))
    else (n, names, numbers)

/-- index-parse-hl.c:191-233 `remove_unused_bands`. -/
def removeUnused (use : List Bool) (names : List String) (numbers : List (List Int)) :
    List String × List (List Int) :=
  let r := removeLoop names.length 0 names.length use names numbers
  (r.2.1.take r.1, r.2.2.map (·.take r.1))

/-- One index after parsing. -/
structure Index where
  name : String
  type : IType
  bands : List String
deriving DecidableEq, Repr

/-- index-parse-hl.c:289-301: the loop over the indices; the marked bands, the parsed indices and the
number of errors. -/
def parseIndices (defs : String → Option J) (bands : List String) : List Bool → List String →
    Out (List Bool × List Index × Nat)
  | use, [] => .ok (use, [], 0)
  | use, n :: ns =>
    (requiredBands defs bands n).bind fun r =>
    match r with
    | none => (parseIndices defs bands use ns).bind fun x => .ok (x.1, x.2.1, x.2.2 + 1)
    | some r =>
      let c := checkAvailable bands use r.2
      (parseIndices defs bands c.1 ns).bind fun x =>
        .ok (x.1, ⟨n, r.1, r.2⟩ :: x.2.1, if c.2 > 0 then x.2.2 + 1 else x.2.2)

/-- index-parse-hl.c:269-335 `retrieve_indices`; an error ends the program. -/
def retrieveIndices (defs : String → Option J) (adjust : Bool) (sen : Sen) (names : List String) :
    Out (Sen × List Index) :=
  (parseIndices defs sen.bandNames (sen.bandNames.map fun _ => false) names).bind fun r =>
  if r.2.2 > 0 then .exit
  else if adjust then .ok (sen, r.2.1)
  else
    let u := removeUnused r.1 sen.bandNames sen.bandNumber
    .ok (⟨sen.sensors, u.1, u.2⟩, r.2.1)

/-! ## Computing -/

/-- The way an index is computed (index-compute-hl.c:37-43) with the positions of its operands in the
list of bands of the index. -/
inductive Kind where
  | differenced | resistance | tasseled | kernelized | ratio | msrre | contRemove
deriving DecidableEq, Repr

/-- index-compute-hl.c:923-1164: the chain of comparisons with the name of the index: how it is
computed, how many bands must be defined (`check_nbands_for_index`), and which of them are used, in
the order of the operands. -/
def dispatch (name : String) : Option (Kind × Nat × List Nat) :=
  if name = "NDVI" then some (.differenced, 2, [0, 1])
  else if name = "EVI" then some (.resistance, 3, [0, 1, 2])
  else if name = "NBR" then some (.differenced, 2, [0, 1])
  else if name = "NDTI" then some (.differenced, 2, [0, 1])
  else if name = "ARVI" then some (.resistance, 3, [0, 1, 2])
  else if name = "SAVI" then some (.resistance, 3, [0, 1, 2])
  else if name = "SARVI" then some (.resistance, 3, [0, 1, 2])
  else if name = "TC-BRIGHT" then some (.tasseled, 6, [0, 1, 2, 3, 4, 5])
  else if name = "TC-GREEN" then some (.tasseled, 6, [0, 1, 2, 3, 4, 5])
  else if name = "TC-WET" then some (.tasseled, 6, [0, 1, 2, 3, 4, 5])
  else if name = "TC-DI" then some (.tasseled, 6, [0, 1, 2, 3, 4, 5])
  else if name = "NDBI" then some (.differenced, 2, [0, 1])
  else if name = "NDWI" then some (.differenced, 2, [0, 1])
  else if name = "MNDWI" then some (.differenced, 2, [0, 1])
  else if name = "NDMI" then some (.differenced, 2, [0, 1])
  else if name = "NDSI" then some (.differenced, 2, [0, 1])
  else if name = "kNDVI" then some (.kernelized, 2, [0, 1])
  else if name = "NDRE1" then some (.differenced, 2, [0, 1])
  else if name = "NDRE2" then some (.differenced, 2, [0, 1])
  else if name = "CIre" then some (.ratio, 2, [0, 1])
  else if name = "NDVIre1" then some (.differenced, 2, [0, 1])
  else if name = "NDVIre2" then some (.differenced, 2, [0, 1])
  else if name = "NDVIre3" then some (.differenced, 2, [0, 1])
  else if name = "NDVIren" then some (.differenced, 2, [0, 1])
  else if name = "NDVIre2n" then some (.differenced, 2, [0, 1])
  else if name = "NDVIre3n" then some (.differenced, 2, [0, 1])
  else if name = "MSRre" then some (.msrre, 2, [0, 1])
  else if name = "MSRren" then some (.msrre, 2, [0, 1])
  else if name = "CCI" then some (.differenced, 2, [0, 1])
  else if name = "EVI2" then some (.resistance, 2, [0, 1, 1])
  else if name = "ContRemSWIR" then some (.contRemove, 3, [0, 1, 2])
  else none

/-- brick_base-cl.c:807-817 `find_domain` and index-compute-hl.c:858-868 `band_for_index`: the band of
the image with this domain; the program ends if there is none. -/
def bandFor : List String → String → Nat → Out Nat
  | [], _, _ => .exit
  | d :: ds, x, b => if d = x then .ok b else bandFor ds x (b + 1)

/-- The operands of one index: `band_for_index` for each. -/
def operands (domains : List String) (bands : List String) : List Nat → Out (List Nat)
  | [] => .ok []
  | k :: ks =>
    match bands[k]? with
    | none => .ub
    | some n => (bandFor domains n 0).bind fun b => (operands domains bands ks).bind fun r =>
        .ok (b :: r)

/-- index-compute-hl.c:910-1184 `tsa_spectral_index`: the image bands that are handed to the
computation. The domains of the image are those of the bands of the configuration
(read-ard-hl.c:1154 and 1206 `set_brick_domain`). -/
def indexOperands (domains : List String) (i : Index) : Out (List Nat) :=
  match i.type with
  | .band => operands domains i.bands [0]
  | .sma => .ok (List.range domains.length)
  | .equation =>
    match dispatch i.name with
    | none => .exit
    | some (_, n, ks) => if n ≠ i.bands.length then .exit else operands domains i.bands ks

/-- read-ard-hl.c:1146-1212: what is read into the bands of an image: the number of the band in the
file, 0 for a blank band; `none` for a band the file does not have (the image cannot be read).
Negative numbers are skipped. -/
def readBands (inFile : Nat) : List Int → Option (List Int)
  | [] => some []
  | n :: ns =>
    if n < 0 then readBands inFile ns
    else if n = 0 then (readBands inFile ns).map (0 :: ·)
    else if n < 1 ∨ n > inFile then none
    else (readBands inFile ns).map (n :: ·)

/-- misc/runtime-data/indices.json: the definitions that are shipped. -/
def shipped : List (String × List String) :=
  [("NDVI", ["NIR", "RED"]),
   ("EVI", ["NIR", "RED", "BLUE"]),
   ("NBR", ["NIR", "SWIR2"]),
   ("NDTI", ["SWIR1", "SWIR2"]),
   ("ARVI", ["NIR", "RED", "BLUE"]),
   ("SAVI", ["NIR", "RED", "BLUE"]),
   ("SARVI", ["NIR", "RED", "BLUE"]),
   ("TC-BRIGHT", ["BLUE", "GREEN", "RED", "NIR", "SWIR1", "SWIR2"]),
   ("TC-GREEN", ["BLUE", "GREEN", "RED", "NIR", "SWIR1", "SWIR2"]),
   ("TC-WET", ["BLUE", "GREEN", "RED", "NIR", "SWIR1", "SWIR2"]),
   ("TC-DI", ["BLUE", "GREEN", "RED", "NIR", "SWIR1", "SWIR2"]),
   ("NDBI", ["SWIR1", "NIR"]),
   ("NDWI", ["GREEN", "NIR"]),
   ("MNDWI", ["GREEN", "SWIR1"]),
   ("NDMI", ["NIR", "SWIR1"]),
   ("NDSI", ["GREEN", "SWIR1"]),
   ("kNDVI", ["NIR", "RED"]),
   ("NDRE1", ["REDEDGE2", "REDEDGE1"]),
   ("NDRE2", ["REDEDGE3", "REDEDGE1"]),
   ("CIre", ["REDEDGE3", "REDEDGE1"]),
   ("NDVIre1", ["BROADNIR", "REDEDGE1"]),
   ("NDVIre2", ["BROADNIR", "REDEDGE2"]),
   ("NDVIre3", ["BROADNIR", "REDEDGE3"]),
   ("NDVIre1n", ["NIR", "REDEDGE1"]),
   ("NDVIre2n", ["NIR", "REDEDGE2"]),
   ("NDVIre3n", ["NIR", "REDEDGE3"]),
   ("MSRre", ["BROADNIR", "REDEDGE1"]),
   ("MSRren", ["NIR", "REDEDGE1"]),
   ("CCI", ["GREEN", "RED"]),
   ("EVI2", ["NIR", "RED"]),
   ("ContRemSWIR", ["SWIR1", "NIR", "SWIR2"])]

/-- `load_index_definitions` (index-parse-hl.c:32-51) with the shipped file. -/
def shippedDefs (name : String) : Option J :=
  (shipped.lookup name).map fun l => .arr (l.map .str)

end Verif.Sensor
