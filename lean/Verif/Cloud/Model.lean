import Verif.Recon.Model
import Verif.Buffer.Model
import Verif.Dist.Model
import Verif.Qai.Model
import Verif.Index.Model

/-!
# Model of the detection of clouds and cloud shadows

`src/modules/lower-level/cloud-ll.c`. Simplifications: `float` and `double` are rational numbers; the quantiles of GSL are parameters; iterations
of parallel loops that only touch their own pixel are functions of the pixel.
-/

namespace Verif.Cloud

open Verif.Str (Out)
open Verif.Recon (Px Img Ret inside nb np8)
open Verif.Queue (Q toShort)

/-! ## Potential clouds -/

/-- Top of atmosphere reflectance (and temperature, if there is such a band), slope and saturation of one pixel. -/
structure Pixel where
  blue : Int
  green : Int
  red : Int
  nir : Int
  sw1 : Int
  sw2 : Int
  temp : Option Int
  slope : Nat
  sat : Bool

/-- Normalized difference, cloud-ll.c:285-291. -/
def nd (a b : Int) : ℚ := if a + b ≠ 0 then ((a - b : Int) : ℚ) / ((a + b : Int) : ℚ) else 1 / 100

/-- cloud-ll.c:285-287. -/
def Pixel.ndvi (x : Pixel) : ℚ := nd x.nir x.red
/-- cloud-ll.c:289-291. -/
def Pixel.ndsi (x : Pixel) : ℚ := nd x.green x.sw1

/-- cloud-ll.c:293-300. -/
def Pixel.snow (x : Pixel) : Bool :=
  (match x.temp with
    | some t => decide (x.ndsi > 15 / 100 ∧ t < 28300 ∧ x.nir > 1100 ∧ x.green > 1000)
    | none => false) ||
  decide (x.ndsi > 4 / 10 ∧ x.sw2 < 1100 ∧ x.nir > 1100 ∧ x.green > 1000)

/-- cloud-ll.c:302-306. -/
def Pixel.water (x : Pixel) : Bool :=
  decide (((x.ndvi < 1 / 100 ∧ x.nir < 1100) ∨ (x.ndvi < 1 / 10 ∧ x.ndvi > 0 ∧ x.nir < 500)) ∧ x.slope < 870)

/-- cloud-ll.c:308-311. -/
def Pixel.basic (x : Pixel) : Bool :=
  decide (x.ndsi < 8 / 10 ∧ x.ndvi < 8 / 10 ∧ x.sw2 > 300) && (match x.temp with | some t => !decide (t > 30015) | none => true)

/-- cloud-ll.c:313. -/
def Pixel.vis (x : Pixel) : ℚ := ((x.blue + x.green + x.red : Int) : ℚ) / 3
/-- cloud-ll.c:313. -/
def Pixel.bright (x : Pixel) : Bool := decide (x.vis > 1500)

/-- cloud-ll.c:315-316: whiteness; none: not a number (0/0). A positive number divided by zero is infinite, and limited to 1. -/
def Pixel.white (x : Pixel) : Option ℚ :=
  let s := |(x.blue : ℚ) - x.vis| + |(x.green : ℚ) - x.vis| + |(x.red : ℚ) - x.vis|
  if x.vis = 0 then (if s = 0 then none else some 1)
  else if s / x.vis > 1 then some 1 else some (s / x.vis)

/-- cloud-ll.c:318. -/
def Pixel.hot (x : Pixel) : ℚ := (x.blue : ℚ) - x.red / 2 - 800
/-- cloud-ll.c:320. -/
def Pixel.r45 (x : Pixel) : ℚ := if x.sw1 ≠ 0 then (x.nir : ℚ) / x.sw1 else 0

/-- cloud-ll.c:322-326. -/
def Pixel.potential (x : Pixel) : Bool :=
  x.sat || (x.basic && (match x.white with | some w => decide (w < 7 / 10) | none => false) && x.bright && decide (x.hot > 0) && decide (x.r45 > 75 / 100))

/-- cloud-ll.c:328-338: variability probability, as a 16-bit number. All comparisons with a whiteness that is not a number are false. -/
def Pixel.variability (x : Pixel) : Out Int :=
  let v := if x.sat = true ∧ x.ndvi > 0 then 0 else |x.ndvi|
  let s := if x.sat = true ∧ x.ndsi < 0 then 0 else |x.ndsi|
  match x.white with
  | none => .ub
  | some w => Index.short ((1 - (if v ≥ s then (if v ≥ w then v else w) else (if s ≥ w then s else w))) * 10000)

/-- What is known about a valid pixel at the end, cloud-ll.c:340-372; `snow`: the pixel is in the (buffered) snow mask. -/
structure Class where
  snow : Bool
  water : Bool
  potential : Bool
  clear : Bool
  land : Bool
deriving DecidableEq

/-- cloud-ll.c:302-305, 322-326, 340-342 and 364-369. The water bit is not set before. -/
def classify (x : Pixel) (snow : Bool) : Class :=
  { snow := snow, water := x.water, potential := x.potential
    clear := !x.potential && !snow
    land := !x.potential && !x.water && !snow }

/-- cloud-ll.c:358-372: number of valid, clear, and land pixels; `px`: the valid pixels with their snow mask. -/
def counts (px : List (Pixel × Bool)) : Nat × Nat × Nat :=
  (px.length, (px.filter fun x => (classify x.1 x.2).clear).length, (px.filter fun x => (classify x.1 x.2).land).length)

/-! ## Final flags -/

/-- cloud-ll.c:114; `z`: elevation in km. -/
def cirrusThreshold (z : ℚ) : ℚ := if 70 + 70 * z * z < 100 then 100 else 70 + 70 * z * z
/-- cloud-ll.c:112-115. -/
def isCirrus (snow : Bool) (v : Int) (z : ℚ) : Bool := !snow && decide (v > 100) && decide ((v : ℚ) > cirrusThreshold z)

/-- The quality bits of all pixels. -/
abbrev Quality := Int → BitVec 16

/-- `get_off`. -/
def isOff (v : BitVec 16) : Bool := decide (Qai.get .off v ≠ 0)

/-- cloud-ll.c:90-99: detected clouds. -/
def confident (fcld : Int → Bool) (q : Quality) : Quality := fun p => if isOff (q p) then q p else if fcld p then Qai.set .cld (q p) 2 else q p

/-- cloud-ll.c:101-121: cirrus mask. -/
def cirrusMask (cirrus : Option (Int → Int)) (z : Int → ℚ) (q : Quality) : Int → Bool :=
  match cirrus with
  | none => fun _ => false
  | some c => fun p => !isOff (q p) && isCirrus (decide (Qai.get .snw (q p) ≠ 0)) (c p) (z p)

/-- cloud-ll.c:147-153: one pixel of the last loop. -/
def finish (cld cir shd : Bool) (v : BitVec 16) : BitVec 16 :=
  if isOff v then v
  else
    let v := if cld then (if Qai.get .cld v = 0 then Qai.set .cld v 1 else v) else if cir then Qai.set .cld v 3 else v
    if shd then Qai.set .shd v 1 else v

/-- Radii of the buffers in pixels, cloud-ll.c:123-140, and the order of the writes of the threads for each buffer. A radius of zero is used if there
is no buffer (`buffer_` with radius zero changes nothing, C14). -/
structure Buffers where
  cloud : Nat
  cirrus : Nat
  shadow : Nat
  order : (Int → Bool) → Nat → List Int

/-- cloud-ll.c:61-211 `finalize_cloud`. -/
def finalize (nx ny : Nat) (b : Buffers) (cirrus : Option (Int → Int)) (z : Int → ℚ) (fcld fshd : Int → Bool) (q : Quality) : Out Quality :=
  let q1 := confident fcld q
  let fcir := cirrusMask cirrus z q1
  (Buffer.buffer fcld nx ny b.cloud (b.order fcld b.cloud)).bind fun c =>
  (Buffer.buffer fcir nx ny b.cirrus (b.order fcir b.cirrus)).bind fun i =>
  (Buffer.buffer fshd nx ny b.shadow (b.order fshd b.shadow)).bind fun s =>
  .ok fun p => finish (c p) (i p) (s p) (q1 p)

/-- cloud-ll.c:154: counted as cloud. -/
def counted (v : BitVec 16) : Bool := !isOff v && (decide (Qai.get .cld v > 0) || decide (Qai.get .shd v ≠ 0))

/-- cloud-ll.c:160: cover in percent. -/
def cover (nc npix : Nat) (q : Quality) : ℚ := 100 * ((List.range nc).filter fun p : Nat => counted (q p)).length / npix

/-! ## Decision -/

/-- What comes before the final flags. -/
structure Stages where
  npix : Nat
  nclear : Nat
  ncloud : Nat
  pcp : Int → Bool
  cld : Int → Bool
  shd : Int → Bool

/-- cloud-ll.c:1772-1849 `detect_clouds`, after the stages: quality bits, cover, and whether the image is skipped. -/
def detect (nx ny : Nat) (b : Buffers) (cirrus : Option (Int → Int)) (z : Int → ℚ) (maxcc : ℚ) (s : Stages) (q : Quality) : Out (Quality × ℚ × Bool) :=
  if s.npix ≠ 0 ∧ 100 * (s.nclear : ℚ) / s.npix > 1 / 10 then
    if 100 * (s.ncloud : ℚ) / s.npix ≤ maxcc * (8 / 10) then
      (finalize nx ny b cirrus z s.cld (if s.ncloud > 0 then s.shd else fun _ => false) q).bind fun q =>
      .ok (q, cover (nx * ny) s.npix q, decide (cover (nx * ny) s.npix q > maxcc))
    else (finalize nx ny b cirrus z s.cld (fun _ => true) q).bind fun q => .ok (q, 100, decide (100 > maxcc))
  else (finalize nx ny b cirrus z s.pcp (fun _ => true) q).bind fun q => .ok (q, 100, decide (100 > maxcc))

/-! ## Cloud probability (Landsat) -/

/-- cloud-ll.c:700-704: one pixel; the probabilities and the thresholds are given. -/
def cloudy (pcp water sat bright : Bool) (temp : Int) (landprob waterprob lclr wclr lowtemp : ℚ) : Bool :=
  ((pcp && !water && decide (landprob > lclr)) || (pcp && water && decide (waterprob > wclr)) || decide ((temp : ℚ) < lowtemp - 3500) || sat) && bright

/-! ## Parallax (Sentinel-2) -/

/-- cloud-ll.c:995-1031: is the cell of the pixel `(i, j)` written? All four pixels of the block are looked at. -/
def blockWritten (nx ny : Nat) (off pcp : Nat → Nat → Bool) (i j : Nat) : Bool :=
  !off i j && [(0, 0), (0, 1), (1, 0), (1, 1)].any fun d : Nat × Nat =>
    decide (i + d.1 < ny ∧ j + d.2 < nx) && !off (i + d.1) (j + d.2) && pcp (i + d.1) (j + d.2)

/-- cloud-ll.c:988-993, 1024-1031: the cells that are written, in the order of the loops. -/
def written (nx ny : Nat) (off pcp : Nat → Nat → Bool) : List Nat :=
  (List.range ((ny + 1) / 2)).flatMap fun i => (List.range ((nx + 1) / 2)).filterMap fun j =>
    if blockWritten nx ny off pcp (2 * i) (2 * j) then some (i * (nx / 2) + j) else none

/-- cloud-ll.c:982-983, 1028-1030: the writes go to arrays of `nc_` elements. -/
def ratios (nx ny : Nat) (off pcp : Nat → Nat → Bool) : Out (List Nat) :=
  if (written nx ny off pcp).all fun p => decide (p < (nx / 2) * (ny / 2)) then .ok (written nx ny off pcp) else .ub

/-- Cloud displacement index of a cell, cloud-ll.c:1071, 1099-1103: nodata, not a number (0/0), or a number. -/
inductive Index where
  | nodata
  | nan
  | num (c : ℚ)

abbrev Cdi := Px → Index

/-- cloud-ll.c:1159-1161: a cell that can be the core of a cloud; `var` is the local minimum of the variability. -/
def coreCell (cdi : Cdi) (var : Px → ℚ) (p : Px) : Bool :=
  match cdi p with
  | .nodata => false
  | .nan => false
  | .num c => decide (c ≤ -1 / 2) || (decide (var p > 8 / 10) && decide (c < 0))

/-- cloud-ll.c:1172: a cell that spoils the cells around it. -/
def poor (cdi : Cdi) (var : Px → ℚ) (p : Px) : Bool :=
  match cdi p with
  | .nodata => true
  | .nan => false
  | .num c => decide (c > -1 / 2) && decide (var p < 8 / 10)

/-- cloud-ll.c:1154-1202. -/
def core (nx ny : Nat) (cdi : Cdi) (var : Px → ℚ) (p : Px) : Bool :=
  inside nx ny p && coreCell cdi var p && ((0, 0) :: np8).all fun o => !(inside nx ny (nb p o) && poor cdi var (nb p o))

/-- cloud-ll.c:1229, 1258: cells that can be added. (Nodata is -9999, less than -1.) -/
def candidate (cdi : Cdi) (p : Px) : Bool :=
  match cdi p with
  | .nodata => false
  | .nan => false
  | .num c => decide (c < -1 / 4) && decide (c ≥ -1)

/-- cloud-ll.c:1215-1239: cells of clouds with a neighbour that can be added are queued. -/
def collect (nx ny : Nat) (cdi : Cdi) (clouds : Px → Bool) : List Px → Q → Ret Q
  | [], q => .ok q
  | p :: ps, q =>
    if clouds p && np8.any fun o => inside nx ny (nb p o) && !clouds (nb p o) && candidate cdi (nb p o) then
      (Recon.enq q p).bind fun q => collect nx ny cdi clouds ps q
    else collect nx ny cdi clouds ps q

/-- cloud-ll.c:1249-1265: the neighbours of a cell taken from the queue. -/
def addNeighbours (nx ny : Nat) (cdi : Cdi) (p : Px) : List Px → (Px → Bool) × Q → Ret ((Px → Bool) × Q)
  | [], s => .ok s
  | o :: os, (clouds, q) =>
    if inside nx ny (nb p o) && !clouds (nb p o) && candidate cdi (nb p o) then
      (Recon.enq q (nb p o)).bind fun q => addNeighbours nx ny cdi p os (fun r => if r = nb p o then true else clouds r, q)
    else addNeighbours nx ny cdi p os (clouds, q)

/-- cloud-ll.c:1245-1267: region growing; none if the fuel did not suffice. -/
def grow (nx ny : Nat) (cdi : Cdi) : Nat → (Px → Bool) × Q → Option (Ret (Px → Bool))
  | 0, _ => none
  | fuel + 1, (clouds, q) =>
    match Queue.dequeue q with
    | (.failure, _) => some (.ok clouds)
    | (.ub, _) => some .ub
    | (.success j i, q) =>
      match addNeighbours nx ny cdi (i, j) np8 (clouds, q) with
      | .ok s => grow nx ny cdi fuel s
      | .failure => some .failure
      | .ub => some .ub

/-- cloud-ll.c:1209-1270. -/
def region (nx ny : Nat) (cdi : Cdi) (clouds : Px → Bool) (fuel : Nat) : Option (Ret (Px → Bool)) :=
  match collect nx ny cdi clouds (Recon.pixels nx ny) (Queue.create (nx * ny)) with
  | .ok q => grow nx ny cdi fuel (clouds, q)
  | .failure => some .failure
  | .ub => some .ub

/-- cloud-ll.c:1273-1317: the mask at full resolution; `nx`, `ny`: number of cells. -/
def restore (nx ny : Nat) (clouds : Px → Bool) (sat bright : Nat → Nat → Bool) (i j : Nat) : Bool :=
  (sat i j || (decide (i / 2 < ny ∧ j / 2 < nx) && clouds ((i / 2 : Nat), (j / 2 : Nat)))) && bright i j

/-! ## Depth of dark areas -/

/-- cloud-ll.c:836-841: the image that is filled. -/
def background (nx ny : Nat) (toa : Img) (off far : Px → Bool) (bck : Int) : Img := fun p =>
  if p.1 = 0 ∨ p.1 = (ny : Int) - 1 ∨ p.2 = 0 ∨ p.2 = (nx : Int) - 1 ∨ off p = true ∨ far p = true then bck else toa p

/-- cloud-ll.c:844: `marker_` after the reconstruction `M` of an image. -/
def depth (b : Img × Img) : Img := fun p => toShort (b.1 p - b.2 p)

/-- `marker_` of a thread (zero in the beginning) after its bands, cloud-ll.c:819-846. A band: reconstruction and image. -/
def marker (bands : List (Img × Img)) : Img := bands.foldl (fun _ b => depth b) fun _ => 0

/-- cloud-ll.c:804-808, 848-853: the threads, one after the other. -/
def combine (threads : List (List (Img × Img))) : Img := threads.foldl (fun s t p => if marker t p < s p then marker t p else s p) fun _ => 32767

/-- cloud-ll.c:814, 822-823: the bands of the threads. -/
def schedule (nthread : Nat) (nir sw1 : Img × Img) : List (List (Img × Img)) := if nthread = 1 then [[nir, sw1]] else [[nir], [sw1]]

/-! ## Shadow matching -/

/-- cloud-ll.c:1502, 1507: is a pixel of an object used? -/
def sampled (res : ℚ) (p : Px) : Bool := !(decide (res < 30) && (decide (p.1 % ⌊30 / res⌋ ≠ 0) || decide (p.2 % ⌊30 / res⌋ ≠ 0)))

/-- cloud-ll.c:1503-1515: the pixels of an object that are used; `label`: `CCL`. -/
def members (nx ny : Nat) (res : ℚ) (label : Px → Nat) (id : Nat) : List Px :=
  (Recon.pixels nx ny).filter fun p => decide (label p = id) && sampled res p

/-- cloud-ll.c:1610-1625: position of the shadow of a pixel, if it is in the image. `position h p`: `shadow_position`; `extra p`: height above the base. -/
def castOne (nx ny : Nat) (position : ℚ → Px → Px) (extra : Px → ℚ) (base : ℚ) (p : Px) : Option Px :=
  if inside nx ny (position (extra p + base) p) then some (position (extra p + base) p) else none

/-- What is needed to judge a position, cloud-ll.c:1633-1634: `dark`: potential shadow above the threshold, not cloud, not flat water; `value`: its value. -/
structure Scene where
  nx : Nat
  ny : Nat
  label : Px → Nat
  dark : Px → Bool
  value : Px → ℚ
  position : ℚ → Px → Px

/-- cloud-ll.c:1602-1640: the match of an object at one height. -/
def matchAt (s : Scene) (id : Nat) (extra : Px → ℚ) (object : List Px) (base : ℚ) : ℚ :=
  let ps := object.filterMap (castOne s.nx s.ny s.position extra base)
  let shadow := ((ps.filter s.dark).map fun p => s.value p / 750).sum
  let total := (ps.filter fun p => decide (s.label p ≠ id)).length
  if total > 0 then shadow / total else 0

/-- The best match so far, its pixels, and the drawn pixels. -/
structure Found where
  best : ℚ
  bestAt : List Px
  drawn : List Px

/-- cloud-ll.c:1600-1663: one base height. -/
def tryBase (s : Scene) (id : Nat) (extra : Px → ℚ) (object : List Px) (f : Found) (base : ℚ) : Found :=
  let ps := object.filterMap (castOne s.nx s.ny s.position extra base)
  let m := matchAt s id extra object base
  { drawn := if m ≥ 85 / 100 then f.drawn ++ ps else f.drawn
    best := if m > f.best then m else f.best
    bestAt := if m > f.best then ps else f.bestAt }

/-- cloud-ll.c:1600-1678: one object, all pixels that are set; `bases`: the heights of the loop. -/
def objectShadow (s : Scene) (id : Nat) (extra : Px → ℚ) (object : List Px) (bases : List ℚ) : List Px :=
  let f := bases.foldl (tryBase s id extra object) ⟨0, [], []⟩
  if f.best < 85 / 100 ∧ f.best > 0 then f.drawn ++ f.bestAt else f.drawn

/-- cloud-ll.c:1556-1680: all objects, in the order in which the threads get them. -/
def shadows (s : Scene) (objects : List (Nat × (Px → ℚ) × List Px × List ℚ)) : Px → Bool :=
  objects.foldl (fun m o p => m p || decide (p ∈ objectShadow s o.1 o.2.1 o.2.2.1 o.2.2.2)) fun _ => false

/-! ## Distance -/

/-- cloud-ll.c:1886. -/
def blocked (v : BitVec 16) : Bool := decide (Qai.get .cld v > 0) || decide (Qai.get .shd v ≠ 0) || decide (Qai.get .snw v ≠ 0)

/-- cloud-ll.c:1903-1909. -/
def meters (res : ℚ) (nodata : Int) (v : BitVec 16) (d : Nat) : Int :=
  if isOff v then nodata else if (d : ℚ) * res < 32767 then Index.truncQ (d * res) else 32767

/-- cloud-ll.c:1865-1919 `cloud_distance`: row `y`. -/
def distance (nx ny : Nat) (res : ℚ) (nodata : Int) (q : Nat → Nat → BitVec 16) (y : Nat) : Out (List Int) :=
  (if (List.range ny).any fun b => (List.range nx).any fun a => blocked (q b a) then Dist.distTransform nx ny (fun b a => blocked (q b a)) y
   else .ok ((List.range nx).map fun _ => (ny + nx) % 65536)).bind fun ds =>
  .ok ((List.range nx).map fun x => meters res nodata (q y x) (ds.getD x 0))

end Verif.Cloud
