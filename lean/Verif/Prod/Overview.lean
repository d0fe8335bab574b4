import Verif.Prod.Boa
import Verif.Dist.Model

/-!
# Model of the quicklook and of the cloud distance of a scene

`compile_l2_ovv` (atmo-ll.c:1293-1404) and `cloud_distance` (cloud-ll.c:1865-1919).

Simplifications: exact arithmetic. An image is a function of the number of the pixel.
-/

namespace Verif.Prod

open Verif.Str (Out)
open Verif.Index (truncQ)

/-- atmo-ll.c:1314-1318: resolution of the quicklook. -/
def overviewRes (res : ℚ) : ℚ := if res < 1 then 15 / 10000 else 150

/-- atmo-ll.c:1320: size of the quicklook. -/
def overviewSize (n : Nat) (res : ℚ) : Int := truncQ (n * (res / overviewRes res))

/-- atmo-ll.c:1323, 1354-1355: row (column) of the image that is shown in row (column) `i` of the quicklook. -/
def overviewSource (i : Nat) (res : ℚ) : Int := truncQ (i * (overviewRes res / res))

/-- atmo-ll.c:1387-1393: one channel; `(small)` is an unsigned byte, the number is between 0 and 255. -/
def stretch (v : Int) : Int := if v < 0 then 0 else if v > 2500 then 255 else truncQ ((v : ℚ) / 2500 * 255)

/-- atmo-ll.c:1358-1407: red, green and blue of a pixel. -/
def colour (q : BitVec 16) (red green blue : Int) : Int × Int × Int :=
  if isOff q then (0, 0, 0)
  else if Qai.get .cld q = 3 then (255, 0, 0)
  else if Qai.get .cld q > 0 then (255, 0, 255)
  else if Qai.get .shd q ≠ 0 then (0, 255, 255)
  else if Qai.get .snw q ≠ 0 then (255, 255, 0)
  else if Qai.get .sat q ≠ 0 then (255, 127, 39)
  else if Qai.get .sub q ≠ 0 then (34, 177, 76)
  else (stretch red, stretch green, stretch blue)

/-- atmo-ll.c:1350-1407: the pixel in row `i` and column `j` of the quicklook of an image with `nx` columns. -/
def overview (nx : Nat) (res : ℚ) (qai : Nat → BitVec 16) (red green blue : Nat → Int) (i j : Nat) : Int × Int × Int :=
  let p := ((overviewSource i res) * nx + overviewSource j res).toNat
  colour (qai p) (red p) (green p) (blue p)

/-- cloud-ll.c:1886: cloud, shadow or snow. -/
def busy (q : BitVec 16) : Bool := decide (Qai.get .cld q > 0) || decide (Qai.get .shd q ≠ 0) || decide (Qai.get .snw q ≠ 0)

/-- cloud-ll.c:1883-1901: distance of the pixel in row `y` and column `x`, in pixels; stored as `ushort`. -/
def distPix (nx ny : Nat) (qai : Nat → BitVec 16) (y x : Nat) : Out Nat :=
  if (List.range (nx * ny)).any fun p => busy (qai p) then
    (Dist.distTransform nx ny (fun b a => busy (qai (b * nx + a))) y).bind fun r => match r[x]? with
      | some d => .ok d
      | none => .ub
  else .ok ((ny + nx) % 65536)

/-- cloud-ll.c:1903-1911: the product DST. -/
def cloudDistance (nx ny : Nat) (res : ℚ) (qai : Nat → BitVec 16) (y x : Nat) : Out Int :=
  (distPix nx ny qai y x).bind fun d =>
    if isOff (qai (y * nx + x)) then .ok nodata
    else if d * res < 32767 then .ok (truncQ (d * res))
    else .ok 32767

end Verif.Prod
