import Verif.Tsa.Names
import Verif.Tsa.Harmonic

/-!
# Cases that meet the hypotheses of the theorems
-/

namespace Verif.Tsa

open Spec

/-- Two indices, error of the unmixing, interpolated series, monthly folds with trend, polarmetrics. -/
def exRaw : Par where
  indices := ["NDV", "SMA"]
  otss := false
  orms := true
  onrt := true
  otsi := true
  ostm := true
  fby := ⟨false, false, false⟩
  fbq := ⟨false, false, false⟩
  fbm := ⟨false, true, true⟩
  fbw := ⟨false, false, false⟩
  fbd := ⟨true, false, false⟩
  opct := false
  opol := true
  otro := true
  ocao := false
  pol := ["VPS", "VBL"]
  pypOut := true
  pypCode := false
  rspOut := true
  rspCode := true
  stream := true
  method := .harmonic
  fitMin := 0
  fitMax := 0
  sto := true
  pos := true
  emb := true
  ns := 3

-- accepted; the names that are written; refused without endmembers and without interpolation
example : ∃ p, normalise exRaw = some p ∧ (written p).map (·.name) =
    ["RMS", "TSI", "STM", "TRM", "CAM", "FBD", "VPS-POL", "VBL-POL", "VPS-TRO", "VBL-TRO", "RSP"] ∧
    p.stream = false ∧ p.onrt = false := ⟨_, rfl, by decide +kernel, by decide +kernel, by decide +kernel⟩
example : normalise { exRaw with emb := false } = none ∧ normalise { exRaw with method := .none } = none ∧
    normalise { exRaw with ns := 0 } = none := by decide +kernel

def im1 : Image := ⟨Date.setDate Date.initDate 2019 7 14, "LND08".toList⟩
def im2 : Image := ⟨Date.setDate Date.initDate 2019 7 14, "SEN2A".toList⟩
def im3 : Image := ⟨Date.setDate Date.initDate 2020 3 1, "SEN2A".toList⟩

def exCtx : Ctx where
  images := [im1, im2, im3]
  dmin := Date.setDate Date.initDate 2019 1 1
  dmax := Date.setDate Date.initDate 2020 12 31
  step := 16
  method := .harmonic
  onrt := false
  fitMax := 0
  metrics := ["AVG".toList, "STD".toList]
  win := Season.window 60 330
  umetrics := ["A".toList]

example : Regular exCtx where
  images := by decide +kernel
  distinct := by decide +kernel
  dmin := by decide +kernel
  dmax := by decide +kernel
  order := by decide +kernel
  step := by decide +kernel
  metrics := by decide +kernel
  season := ⟨60, 330, rfl⟩

example : exRaw.indices.Nodup ∧ ∀ i ∈ exRaw.indices, '_' ∉ i.toList := by decide +kernel

-- the two images of one day meet the hypotheses of `c204_bands_violated`
example : exCtx.images[0]? = some im1 ∧ exCtx.images[1]? = some im2 ∧ im1.date.year = im2.date.year ∧
    im1.date.month = im2.date.month ∧ im1.date.day = im2.date.day :=
  ⟨rfl, rfl, by decide +kernel, by decide +kernel, by decide +kernel⟩

end Verif.Tsa
