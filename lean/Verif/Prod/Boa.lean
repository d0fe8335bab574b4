import Verif.Index.Model
import Verif.Qai.Model

/-!
# Model of the Level 2 products of a scene

`apply_aoi` (atmo-ll.c:946-969), the last part of `surface_reflectance` (191-388), `compile_l2_boa` (983-1140),
`compile_l2_hot` (1628-1709), `compile_l2_aod` (1720-1823), `compile_l2_vzn` (1454-1618), `compile_l2_wvp` (1834-1912),
`compile_l2_qai` (1149-1212), `water_vapor` (gas-ll.c:205-455) and their order in `radiometric_correction` (2024-2125)
and `compile_level2` (1927-2002).

Simplifications: no reprojection (`DO_REPROJ = FALSE`), pixels are numbered by natural numbers. The radiative transfer is
a parameter: the reflectance of a pixel is an arbitrary function of the band, of the image of this band as it is at that
time, and of the quality bits as they are at that time. The coarse-grid parameters are arbitrary functions, too (see
Coarse). Exact arithmetic; the conversion to `short` is undefined if it overflows.
-/

namespace Verif.Prod

open Verif.Str (Out)
open Verif.Index (truncQ short)

/-- The nodata value of all products but QAI. -/
def nodata : Int := -9999

/-- quality-cl.c `get_off`. -/
def isOff (q : BitVec 16) : Bool := Qai.get .off q ≠ 0

/-- atmo-ll.c:352-364: value and quality bits of one pixel in one band; `ref` is the reflectance. The conversion does not
overflow, as `ref` is at least −1 there. -/
def judge (erase : Bool) (ref : ℚ) (q : BitVec 16) : Int × BitVec 16 :=
  let q := if ref < 0 then Qai.set .sub q 1 else q
  let q := if ref > 1 then Qai.set .sat q 1 else q
  if erase && Qai.get .cld q = 2 then (nodata, q)
  else if ref < -1 then (nodata, Qai.set .off q 1)
  else if ref * 10000 > 32767 then (32767, q)
  else (truncQ (ref * 10000), q)

/-- The bands of the brick and the quality bits. -/
structure Scene where
  band : Nat → Nat → Int
  qai : Nat → BitVec 16

/-- The radiative transfer: band, image of the band, quality bits, pixel. -/
abbrev Radiometry := Nat → (Nat → Int) → (Nat → BitVec 16) → Nat → ℚ

/-- atmo-ll.c:261-369, in `surface_reflectance`: reads band `b`, writes band `b'` of the same brick. -/
def surface (erase : Bool) (rad : Radiometry) (b b' : Nat) (s : Scene) : Scene where
  band := fun k p => if k = b' then (if isOff (s.qai p) then nodata else (judge erase (rad b (s.band b) s.qai p) (s.qai p)).1)
    else s.band k p
  qai := fun p => if isOff (s.qai p) then s.qai p else (judge erase (rad b (s.band b) s.qai p) (s.qai p)).2

/-- atmo-ll.c:988-991: the bands of the product. -/
def targets : List String :=
  ["BLUE", "GREEN", "RED", "REDEDGE1", "REDEDGE2", "REDEDGE3", "BROADNIR", "NIR", "SWIR1", "SWIR2"]

/-- brick_base-cl.c `find_domain`: the first band with this name. -/
def findDomain (dom : List String) (d : String) : Option Nat := dom.findIdx? (· == d)

/-- atmo-ll.c:1036-1039: the numbers of the bands that are found. -/
def sources (dom : List String) : List Nat := targets.filterMap (findDomain dom)

/-- atmo-ll.c:1046-1076: the first `k` bands. -/
def bandsDone (erase : Bool) (rad : Radiometry) (src : List Nat) (s : Scene) (k : Nat) : Scene :=
  (List.range k).foldl (fun t b => surface erase rad (src.getD b 0) b t) s

/-- atmo-ll.c:1036-1090, in `compile_l2_boa`, with the loop that forces nodata in all bands. -/
def compileBoa (erase : Bool) (rad : Radiometry) (dom : List String) (s : Scene) : Scene :=
  let src := sources dom
  let t := bandsDone erase rad src s src.length
  { t with band := fun k p => if isOff (t.qai p) && decide (k < src.length) then nodata else t.band k p }

/-- atmo-ll.c:946-969 `apply_aoi`. -/
def applyAoi (aoi : Option (Nat → Nat)) (q : Nat → BitVec 16) (p : Nat) : BitVec 16 :=
  match aoi with
  | none => q p
  | some a => if a p = 0 then Qai.set .off (q p) 1 else q p

/-- atmo-ll.c:1660-1667, in `compile_l2_hot`. -/
def hotValue (s : Scene) (blue red : Nat) (p : Nat) : Out Int :=
  if isOff (s.qai p) then .ok nodata else short (s.band blue p - (1 / 2 : ℚ) * s.band red p - 800)

/-- atmo-ll.c:1772-1777, in `compile_l2_aod`; `aod` is the interpolated optical depth. -/
def aodValue (doatmo : Bool) (aod : Nat → ℚ) (q : BitVec 16) (p : Nat) : Out Int :=
  if isOff q || !doatmo then .ok nodata else short (aod p * 1000)

/-- atmo-ll.c:1574-1579, in `compile_l2_vzn`; `vzn` is the interpolated angle, times 100. -/
def vznValue (vzn : Nat → ℚ) (q : BitVec 16) (p : Nat) : Out Int :=
  if isOff q then .ok nodata else short (vzn p)

/-- gas-ll.c:383-402, 417-442, in `water_vapor` (Sentinel-2): value and quality bits of a pixel; `est` is the estimate at
this pixel (between 0 and 7 cm), `avg` the mean of all estimates, if there are any. The memory of a new brick is zero. -/
def waterVapor (est : Nat → Option ℚ) (avg : Option ℚ) (q : Nat → BitVec 16) (p : Nat) : Int × BitVec 16 :=
  let v := if isOff (q p) then 0 else match est p with
    | some w => truncQ (w * 1000)
    | none => 0
  match avg with
  | none => (v, q p)
  | some a => if isOff (q p) || decide (v > 0) then (v, q p) else (truncQ (a * 1000), Qai.set .wvp (q p) 1)

/-- atmo-ll.c:1862-1869, in `compile_l2_wvp` without a water vapour image (Landsat); `wvp` is the value of the scene. -/
def wvpValue (doatmo : Bool) (wvp : ℚ) (q : BitVec 16) : Out Int :=
  if isOff q || !doatmo then .ok nodata else short (wvp * 1000)

/-- atmo-ll.c:1171-1176, in `compile_l2_qai`. -/
def qaiValue (q : BitVec 16) : BitVec 16 := if isOff q then 1 else q

/-- What the products are made of, besides the scene. -/
structure Setup where
  /-- `ERASE_CLOUDS` -/
  erase : Bool
  /-- `DO_ATMO` -/
  doatmo : Bool
  sentinel2 : Bool
  rad : Radiometry
  dom : List String
  blue : Nat
  red : Nat
  aod : Nat → ℚ
  vzn : Nat → ℚ
  est : Nat → Option ℚ
  avg : Option ℚ
  wvp : ℚ
  aoi : Option (Nat → Nat)

/-- The products (DST and OVV: see Overview). -/
structure Products where
  hot : Nat → Out Int
  aod : Nat → Out Int
  boa : Nat → Nat → Int
  wvp : Nat → Out Int
  qai : Nat → BitVec 16
  vzn : Nat → Out Int

/-- atmo-ll.c:2078-2100: quality bits before the products are compiled. -/
def maskedScene (c : Setup) (s : Scene) : Scene :=
  let q := if c.doatmo && c.sentinel2 then fun p => (waterVapor c.est c.avg s.qai p).2 else s.qai
  { s with qai := applyAoi c.aoi q }

/-- atmo-ll.c:2078-2106 and 1959-1990: the products, in the order of `compile_level2`. -/
def level2 (c : Setup) (s : Scene) : Products :=
  let t := maskedScene c s
  let b := compileBoa c.erase c.rad c.dom t
  { hot := fun p => hotValue t c.blue c.red p
    aod := fun p => aodValue c.doatmo c.aod (t.qai p) p
    boa := b.band
    wvp := fun p => if c.doatmo && c.sentinel2 then .ok (waterVapor c.est c.avg s.qai p).1 else wvpValue c.doatmo c.wvp (b.qai p)
    qai := fun p => qaiValue (b.qai p)
    vzn := fun p => vznValue c.vzn (qaiValue (b.qai p)) p }

end Verif.Prod
