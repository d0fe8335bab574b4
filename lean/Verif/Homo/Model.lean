import Mathlib.Analysis.SpecialFunctions.Trigonometric.Inverse
import Mathlib.Analysis.Real.Sqrt
import Mathlib.Algebra.Order.Floor.Ring
import Verif.Str.Model

/-!
# Spectral adjustment

Model of spec-adjust-hl.c: the reflectance of Landsat and MODIS is adjusted to Sentinel-2 with one
regression for each of 50 clusters of spectra, and one for all spectra ("global"). The tables of
cluster centres and coefficients are parameters; numbers are real.
-/

namespace Verif.Homo

open Verif.Str

/-- spec-adjust-hl.c:39 `_SPECHOMO_N_CLS_`: 50 clusters and the global one. -/
def nCls : Nat := 51

/-- spec-adjust-hl.c:43 `_SPECHOMO_N_SIM_`. -/
def nSim : Nat := 10

/-- spec-adjust-hl.c:46 `_SPECHOMO_POOR_SAM_`. -/
noncomputable def poor : ℝ := 0.2617995

/-- spec-adjust-hl.c:48 `_SPECHOMO_MIN_WEIGHT_`. -/
noncomputable def minWeight : ℝ := 1 - 0.0698132 / poor

/-- spec-adjust-hl.c:49 `_SPECHOMO_MED_WEIGHT_`. -/
noncomputable def medWeight : ℝ := 1 - 0.2094395 / poor

/-- Sum of products of two spectra (spec-adjust-hl.c:825-831). -/
def dot (x y : List ℤ) : ℤ := ((x.zip y).map fun c => c.1 * c.2).sum

/-- spec-adjust-hl.c:824-837: spectral angle. -/
noncomputable def sam (x y : List ℤ) : ℝ :=
  if 0 < dot x x ∧ 0 < dot y y then Real.arccos ((dot x y : ℝ) / Real.sqrt ((dot x x : ℝ) * dot y y)) else 1

/-- spec-adjust-hl.c:839-845: weight of a cluster. -/
noncomputable def weight (a : ℝ) : ℝ := if a > poor then 0.00001 else 1 - a / poor

/-- spec-adjust-hl.c:861-867: the largest weight and its cluster, in the first round; the cluster
number `nSim - 1` is skipped, not `nCls - 1`. -/
noncomputable def firstMax (w : Nat → ℝ) : ℝ × Nat :=
  (List.range nCls).foldl (fun m s => if w s > m.1 ∧ s ≠ nSim - 1 then (w s, s) else m) (-1, 0)

/-- spec-adjust-hl.c:902-909: the largest weight and its cluster, in later rounds. -/
noncomputable def nextMax (w : Nat → ℝ) (c : Nat) : ℝ × Nat :=
  (List.range (nCls - 1)).foldl (fun m s => if w s > m.1 then (w s, s) else m) (-1, c)

/-- spec-adjust-hl.c:882-915: the clusters that are used, with their weights; `k` rounds are left,
`m` is the largest weight and its cluster. -/
noncomputable def select : Nat → (Nat → ℝ) → ℝ × Nat → List (Nat × ℝ)
  | 0, _, _ => []
  | k + 1, w, m =>
    if m.1 > minWeight ∨ (m.1 > medWeight ∧ m.1 > w (nCls - 1)) then
      (m.2, m.1) :: select k (fun s => if s = m.2 then 0 else w s) (nextMax (fun s => if s = m.2 then 0 else w s) m.2)
    else [(nCls - 1, w (nCls - 1))]

/-- The clusters for the weights of a pixel. -/
noncomputable def selected (w : Nat → ℝ) : List (Nat × ℝ) := select nSim w (firstMax w)

/-- spec-adjust-hl.c:935-938: the regression of a cluster, with the offset last. -/
def regress (coef : List ℝ) (x : List ℤ) : ℝ :=
  ((coef.zip x).map fun c => c.1 * (c.2 : ℝ)).sum + coef.getD x.length 0

/-- spec-adjust-hl.c:923-946, 960: weighted mean of the predictions. -/
noncomputable def mean (sel : List (Nat × ℝ)) (pred : Nat → ℝ) : ℝ :=
  (sel.map fun c => c.2 * pred c.1).sum / (sel.map fun c => c.2).sum

/-- Truncation to an integer. -/
noncomputable def truncR (x : ℝ) : ℤ := if 0 ≤ x then ⌊x⌋ else ⌈x⌉

/-- Tables of a sensor: centres of the clusters, coefficients of a destination band and cluster. -/
structure Tables where
  center : Nat → List ℤ
  coef : Nat → Nat → List ℝ

/-- spec-adjust-hl.c:812-960: the destination bands of a pixel from its source bands. Values that do
not fit into 16 bit are undefined in C; here they are kept. -/
noncomputable def adjustPixel (t : Tables) (ndst : Nat) (x : List ℤ) : List ℤ :=
  let sel := selected fun s => weight (sam x (t.center s))
  (List.range ndst).map fun b => truncR (mean sel fun s => regress (t.coef b s) x)

/-- An image: sensor, domains of the bands, use of the pixels, values by band and pixel. -/
structure Image where
  sensor : String
  domain : List String
  msk : Nat → Bool
  dat : Nat → Nat → ℤ

/-- spec-adjust-hl.c:51-52. -/
def sensors : List String := ["LND04", "LND05", "LND07", "LND08", "LND09", "MOD01", "MOD02"]

/-- spec-adjust-hl.c:54-55. -/
def srcDomain : List String := ["BLUE", "GREEN", "RED", "NIR", "SWIR1", "SWIR2"]

/-- spec-adjust-hl.c:57-59. -/
def dstDomain : List String :=
  ["BLUE", "GREEN", "RED", "REDEDGE1", "REDEDGE2", "REDEDGE3", "BROADNIR", "NIR", "SWIR1", "SWIR2"]

/-- `find_domain` (brick_base-cl.c): the first band of a domain. -/
def findDomain (l : List String) (d : String) : Option Nat := l.findIdx? fun x => x = d

/-- spec-adjust-hl.c:809-960: the bands of the image; the bands of the destination are written in order
after all predictions of the pixel are made. -/
noncomputable def newDat (t : Tables) (mask : Nat → Bool) (im : Image) (src dst : List Nat) (b p : Nat) : ℤ :=
  if mask p = true ∧ im.msk p = true then
    (dst.zip (adjustPixel t dst.length (src.map fun b' => im.dat b' p))).foldl
      (fun v c => if c.1 = b then c.2 else v) (im.dat b p)
  else im.dat b p

/-- spec-adjust-hl.c:776-967 `spectral_predict`: `none` is failure. -/
noncomputable def predict (t : Tables) (mask : Nat → Bool) (im : Image) : Option Image :=
  match srcDomain.mapM (findDomain im.domain), dstDomain.mapM (findDomain im.domain) with
  | some src, some dst => some { im with dat := newDat t mask im src dst }
  | _, _ => none

/-- spec-adjust-hl.c:1000-1034: one image. -/
noncomputable def adjustOne (tables : Nat → Tables) (mask : Nat → Bool) (im : Image) : Out Image :=
  match sensors.findIdx? (fun s => s = im.sensor) with
  | none =>
    if im.domain.length ≠ dstDomain.length then .exit
    else if dstDomain.any (fun d => (findDomain im.domain d).isNone) then .exit
    else .ok im
  | some s =>
    match predict (tables s) mask im with
    | none => .exit
    | some im' => .ok im'

/-- spec-adjust-hl.c:977-1040 `spectral_adjust`. -/
noncomputable def adjust (tables : Nat → Tables) (mask : Nat → Bool) : List Image → Out (List Image)
  | [] => .ok []
  | im :: l => (adjustOne tables mask im).bind fun a => (adjust tables mask l).bind fun r => .ok (a :: r)

end Verif.Homo
