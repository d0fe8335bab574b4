import Verif.Sensor.Model

/-!
# Specification of the sensor and index configuration
-/

namespace Verif.Sensor.Spec

open Verif.Sensor

/-- The definition of sensor `s` lists these bands. -/
def BandsOf (defs : String → Option SensorDef) (s : String) (l : List String) : Prop :=
  ∃ d, defs s = some d ∧ d.bandNames = some (.arr (l.map .str))

/-- The definition of sensor `s` lists band `b`. -/
def HasBand (defs : String → Option SensorDef) (s : String) (b : String) : Prop :=
  ∃ l, BandsOf defs s l ∧ b ∈ l

/-- A complete and consistent definition with name `name` and bands `l`. -/
def Valid (defs : String → Option SensorDef) (s name : String) (l : List String) : Prop :=
  ∃ d, defs s = some d ∧ d.name = some (.str name) ∧ d.bands = some (.int l.length) ∧
    d.bandNames = some (.arr (l.map .str)) ∧ 1 ≤ l.length ∧ l.length < 2147483648 ∧
    name.length < 1024 ∧ ∀ b ∈ l, b.length < 1024

/-- The bands an index is made of: a band itself, all bands for the unmixing, else its definition. -/
def Required (defs : String → Option J) (bands : List String) (name : String) (req : List String) :
    Prop :=
  (name ∈ bands ∧ req = [name]) ∨
  (name ∉ bands ∧ name = "SMA" ∧ req = bands) ∨
  (name ∉ bands ∧ name ≠ "SMA" ∧ defs name = some (.arr (req.map .str)))

/-- The bands of the formula of each index, in the order in which they appear in it
(docs/source/components/higher-level/tsa/indices.rst; BNIR is BROADNIR; EVI2 and ContRemSWIR are not listed
there). -/
def documented : List (String × List String) :=
  [("NDVI", ["NIR", "RED"]), ("EVI", ["NIR", "RED", "BLUE"]), ("NBR", ["NIR", "SWIR2"]),
   ("NDTI", ["SWIR1", "SWIR2"]), ("ARVI", ["NIR", "RED", "BLUE"]), ("SAVI", ["NIR", "RED", "BLUE"]),
   ("SARVI", ["NIR", "RED", "BLUE"]),
   ("TC-BRIGHT", ["BLUE", "GREEN", "RED", "NIR", "SWIR1", "SWIR2"]),
   ("TC-GREEN", ["BLUE", "GREEN", "RED", "NIR", "SWIR1", "SWIR2"]),
   ("TC-WET", ["BLUE", "GREEN", "RED", "NIR", "SWIR1", "SWIR2"]),
   ("TC-DI", ["BLUE", "GREEN", "RED", "NIR", "SWIR1", "SWIR2"]),
   ("NDBI", ["SWIR1", "NIR"]), ("NDWI", ["GREEN", "NIR"]), ("MNDWI", ["GREEN", "SWIR1"]),
   ("NDMI", ["NIR", "SWIR1"]), ("NDSI", ["GREEN", "SWIR1"]), ("kNDVI", ["NIR", "RED"]),
   ("NDRE1", ["REDEDGE2", "REDEDGE1"]), ("NDRE2", ["REDEDGE3", "REDEDGE1"]),
   ("CIre", ["REDEDGE3", "REDEDGE1"]), ("NDVIre1", ["BROADNIR", "REDEDGE1"]),
   ("NDVIre2", ["BROADNIR", "REDEDGE2"]), ("NDVIre3", ["BROADNIR", "REDEDGE3"]),
   ("NDVIre1n", ["NIR", "REDEDGE1"]), ("NDVIre2n", ["NIR", "REDEDGE2"]),
   ("NDVIre3n", ["NIR", "REDEDGE3"]), ("MSRre", ["BROADNIR", "REDEDGE1"]),
   ("MSRren", ["NIR", "REDEDGE1"]), ("CCI", ["GREEN", "RED"]), ("EVI2", ["NIR", "RED"]),
   ("ContRemSWIR", ["SWIR1", "NIR", "SWIR2"])]

end Verif.Sensor.Spec
