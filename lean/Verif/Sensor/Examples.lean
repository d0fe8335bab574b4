import Verif.Sensor.IndexProps

/-!
# The hypotheses are met by the shipped definitions
-/

namespace Verif.Sensor

open Verif.Str (Out)
open Spec

/-- misc/runtime-data/sensors/*.json, three of them. -/
def mkDef (name : String) (l : List String) : SensorDef :=
  ⟨some (.str name), some (.int l.length), some (.arr (l.map .str))⟩

def landsat : List String := ["BLUE", "GREEN", "RED", "NIR", "SWIR1", "SWIR2"]
def sentinel : List String :=
  ["BLUE", "GREEN", "RED", "REDEDGE1", "REDEDGE2", "REDEDGE3", "BROADNIR", "NIR", "SWIR1", "SWIR2"]

def someDefs (s : String) : Option SensorDef :=
  if s = "LND08" then some (mkDef "LND08" landsat)
  else if s = "SEN2A" then some (mkDef "SEN2A" sentinel)
  else if s = "sen2a" then some (mkDef "SEN2A" ["BLUE", "GREEN", "RED", "BROADNIR"])
  else if s = "LNDLG" then some (mkDef "LNDLG" landsat)
  else none

theorem valid_lnd08 : Valid someDefs "LND08" "LND08" landsat :=
  ⟨mkDef "LND08" landsat, rfl, rfl, rfl, rfl, by decide, by decide, by decide +kernel,
    by decide +kernel⟩

theorem valid_sen2a : Valid someDefs "SEN2A" "SEN2A" sentinel :=
  ⟨mkDef "SEN2A" sentinel, rfl, rfl, rfl, rfl, by decide, by decide, by decide +kernel,
    by decide +kernel⟩

theorem valid_lndlg : Valid someDefs "LNDLG" "LNDLG" landsat :=
  ⟨mkDef "LNDLG" landsat, rfl, rfl, rfl, rfl, by decide, by decide, by decide +kernel,
    by decide +kernel⟩

/-- Sentinel-2 and Landsat together: the Landsat bands, read from different positions. -/
def both : Sen := ⟨["SEN2A", "LND08"], landsat, [[1, 2, 3, 8, 9, 10], [1, 2, 3, 4, 5, 6]]⟩

/-- The hypothesis of `c68_bands`, `c68_numbers`, `c68_target` and `c71_disc_partial`. -/
theorem both_ok : retrieveSensor someDefs false (some "LNDLG") ["SEN2A", "LND08"] = .ok (some both) := by
  decide +kernel

/-- The hypotheses of `c68_accept`. -/
example : ∃ r, retrieveSensor someDefs false (some "LNDLG") ["SEN2A", "LND08"] = .ok (some r) ∧
    r.bandNames = landsat ∧ r.sensors = ["SEN2A", "LND08"] :=
  c68_accept someDefs "LNDLG" "LNDLG" landsat ["SEN2A", "LND08"] ⟨"SEN2A", sentinel⟩
    [⟨"LND08", landsat⟩] (.cons valid_sen2a (.cons valid_lnd08 .nil)) valid_lndlg landsat
    (by decide +kernel) (by decide) rfl (fun b h => h)

/-- Landsat with Sentinel-2 as target is refused. -/
example : retrieveSensor someDefs false (some "SEN2A") ["SEN2A", "LND08"] = .ok none := by
  decide +kernel

/-- The hypotheses of `c69_adjust_violated`. -/
example (t : Option String) : retrieveSensor someDefs true t ["LND08"] = .ub :=
  c69_adjust_violated someDefs t ["LND08"] [⟨"LND08", landsat⟩] "SEN2A" sentinel
    (.cons valid_lnd08 .nil) valid_sen2a

/-- The hypotheses of `c69_lowres_violated`. -/
example : retrieveSensor someDefs false none ["LND08"] = .ub :=
  (c69_lowres_violated someDefs ["LND08"]).2 ⟨"LND08", landsat⟩ [] (.cons valid_lnd08 .nil)
    ⟨"RED", by decide +kernel, by simp⟩

example : bandUnion [landsat, sentinel] = .ok (some (landsat ++
    ["REDEDGE1", "REDEDGE2", "REDEDGE3", "BROADNIR"])) := by decide +kernel

/-- Indices for the two sensors; the hypothesis of `c71_disc_partial`. -/
example : retrieveIndices shippedDefs false both ["NDVI", "EVI2", "SWIR2"] =
    .ok (⟨["SEN2A", "LND08"], ["RED", "NIR", "SWIR2"], [[3, 8, 10], [3, 4, 6]]⟩,
      [⟨"NDVI", .equation, ["NIR", "RED"]⟩, ⟨"EVI2", .equation, ["NIR", "RED"]⟩,
       ⟨"SWIR2", .band, ["SWIR2"]⟩]) := by decide +kernel

example : indexOperands ["RED", "NIR", "SWIR2"] ⟨"EVI2", .equation, ["NIR", "RED"]⟩ =
    .ok [1, 0, 0] := by decide +kernel

/-- The hypotheses of `c71_ndvire1n_violated`. -/
example : ∃ sen' i, retrieveIndices shippedDefs false ⟨["SEN2A"], sentinel, [[1, 2, 3, 4, 5, 6, 7, 8, 9, 10]]⟩
    ["NDVIre1n"] = .ok (sen', [i]) ∧ indexOperands sen'.bandNames i = .exit :=
  (c71_ndvire1n_violated _ false (by decide +kernel) (by decide +kernel) (by decide +kernel)
    (by decide +kernel)).1

end Verif.Sensor
