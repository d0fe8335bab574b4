import Verif.Ccl.Model
import Verif.Stats.Model
import Verif.Index.Model

/-!
# Model of the landscape metrics

`landscape_metrics` of `src/modules/higher-level/lsm-hl.c` (183-517) for one feature.

Simplifications: exact arithmetic instead of `float` and `double`. `patchAreas` and `totalClassArea` are
multiples of `kfraction`, `patchperimeters` and `totaledgelength` multiples of `sqkfraction`: the multiples are
counted. The distance `sqrt(ii*ii+jj*jj)` is compared with the radius by comparing the squares. `exp`, `log`
and `sqrt` are parameters. Arrays are indexed by row and column.
-/

namespace Verif.Lsm

open Verif.Str (Out)
open Verif.Ccl (Px Image Objects)
open Verif.Index (short)

/-- `_QUERY_EQ_` and others. -/
inductive Query
  | eq | gt | ge | lt | le

/-- The parameters: `LSM_RADIUS` in pixels, `LSM_KERNEL_SHAPE`, `LSM_ALL_PIXELS`, `FEATURE_EXCLUDE`,
`LSM_THRESHOLD_TYPE` and `LSM_THRESHOLD` of the feature, `LSM_MIN_PATCHSIZE`. -/
structure Par where
  radius : Nat
  circle : Bool
  allpx : Bool
  exclude : Bool
  query : Query
  threshold : Int
  minpatch : Int

/-- The chunk: size, values and validity of the feature, nodata value and the processing mask. -/
structure Chunk where
  ny : Nat
  nx : Nat
  dat : Px → Int
  msk : Px → Bool
  nodata : Int
  mask : Option (Px → Bool)

/-- lsm-hl.c:281-282, 326-327 and 363-366. -/
def usable (par : Par) (c : Chunk) (p : Px) : Bool :=
  (match c.mask with
    | none => true
    | some m => m p) && (c.msk p || !par.exclude)

/-- lsm-hl.c:284-302: the query. -/
def matched (q : Query) (x threshold : Int) : Bool :=
  match q with
  | .eq => decide (x = threshold)
  | .gt => decide (x > threshold)
  | .ge => decide (x ≥ threshold)
  | .lt => decide (x < threshold)
  | .le => decide (x ≤ threshold)

/-- lsm-hl.c:260-305: `newFeatures` before the objects are made. -/
def classImage (par : Par) (c : Chunk) : Image :=
  ⟨c.ny, c.nx, fun p => usable par c p && matched par.query (c.dat p) par.threshold⟩

/-- The variables of a thread that are kept from one pixel to the next (lsm-hl.c:312-318): `uniquePatches` up to
`numberOfuniquePatches`, `exists`, `patchAreas`, `patchperimeters`. -/
structure Thread where
  uniq : List Int
  seen : Int → Bool
  area : Int → Nat
  perim : Int → Nat

/-- lsm-hl.c:312-318: memory is zero. -/
def Thread.init : Thread := ⟨[], fun _ => false, fun _ => 0, fun _ => 0⟩

/-- lsm-hl.c:331-337: the entries of the last pixel are reset. -/
def Thread.reset (t : Thread) : Thread :=
  { uniq := []
    seen := t.uniq.foldl (fun a l k => if k = l then false else a k) t.seen
    area := t.uniq.foldl (fun a l k => if k = l then 0 else a k) t.area
    perim := t.uniq.foldl (fun a l k => if k = l then 0 else a k) t.perim }

/-- All variables of a pixel: `validDataPixels`, `mx`, `vx`, `maxVal`, the values whose logarithms are in
`logSum` (their number is `logCounter`), `totalClassArea`, `totaledgelength`. -/
structure Acc extends Thread where
  n : Nat
  mx : ℚ
  vx : ℚ
  maxVal : Int
  logs : List Int
  total : Nat
  edge : Nat

/-- lsm-hl.c:338-345. -/
def fresh (t : Thread) : Acc := { t.reset with n := 0, mx := 0, vx := 0, maxVal := 0, logs := [], total := 0, edge := 0 }

/-- lsm-hl.c:371-383 (`var_recurrence`: stats-cl.c:198-207). -/
def addValue (nodata x : Int) (a : Acc) : Acc :=
  if x ≠ nodata then
    { a with
      n := a.n + 1
      mx := if a.n + 1 = 1 then x else (Verif.Stats.varRec (x : ℚ) a.mx a.vx ((a.n + 1 : Nat) : ℚ)).1
      vx := if a.n + 1 = 1 then a.vx else (Verif.Stats.varRec (x : ℚ) a.mx a.vx ((a.n + 1 : Nat) : ℚ)).2
      maxVal := if a.maxVal < x then x else a.maxVal }
  else a

/-- lsm-hl.c:386-389. -/
def addLog (x : Int) (a : Acc) : Acc := if x > 0 then { a with logs := a.logs ++ [x] } else a

/-- lsm-hl.c:394-398. -/
def register (l : Int) (a : Acc) : Acc :=
  if l > 0 && !a.seen l then
    { a with uniq := a.uniq ++ [l], seen := fun k => if k = l then true else a.seen k }
  else a

/-- lsm-hl.c:409-431: the number of edges of a pixel at offset `off`. -/
def edges (par : Par) (m : Image) (q off : Px) : Nat :=
  let r : Int := par.radius
  (if off.1 ≠ r ∧ q.1 + 1 < m.ny ∧ m.px q ≠ m.px (q + (1, 0)) then 1 else 0) +
  (if off.1 ≠ -r ∧ q.1 - 1 ≥ 0 ∧ m.px q ≠ m.px (q + (-1, 0)) then 1 else 0) +
  (if off.2 ≠ r ∧ q.2 + 1 < m.nx ∧ m.px q ≠ m.px (q + (0, 1)) then 1 else 0) +
  (if off.2 ≠ -r ∧ q.2 - 1 ≥ 0 ∧ m.px q ≠ m.px (q + (0, -1)) then 1 else 0)

/-- lsm-hl.c:399-431. -/
def addPatch (l : Int) (e : Nat) (a : Acc) : Acc :=
  if a.uniq.length = 0 then a
  else
    { a with
      area := fun k => if k = l then a.area k + 1 else a.area k
      total := a.total + 1
      perim := fun k => if k = l then a.perim k + e else a.perim k
      edge := a.edge + e }

/-- lsm-hl.c:351-433: one position of the kernel around `p`. -/
def look (par : Par) (c : Chunk) (o : Objects) (p : Px) (a : Acc) (off : Px) : Acc :=
  let q := p + off
  if par.circle && decide (off.1 * off.1 + off.2 * off.2 > (par.radius : Int) * par.radius) then a
  else if q.1 < 0 || q.2 < 0 || q.1 ≥ c.ny || q.2 ≥ c.nx then a
  else if !usable par c q then a
  else if !o.image.px q then a
  else addPatch (o.obj q) (edges par o.image q off) (register (o.obj q) (addLog (c.dat q) (addValue c.nodata (c.dat q) a)))

/-- lsm-hl.c:348-349: the positions of the kernel. -/
def offsets (r : Nat) : List Px :=
  (List.range (2 * r + 1)).flatMap fun (i : Nat) => (List.range (2 * r + 1)).map fun (j : Nat) =>
    ((i : Int) - r, (j : Int) - r)

/-- lsm-hl.c:324-434: one pixel; `none` if it is skipped. -/
def pixel (par : Par) (c : Chunk) (o : Objects) (t : Thread) (p : Px) : Thread × Option Acc :=
  if !usable par c p then (t, none)
  else if !o.image.px p && !par.allpx then (t, none)
  else
    let a := (offsets par.radius).foldl (look par c o p) (fresh t)
    (a.toThread, some a)

/-- One thread: its pixels in their order. -/
def thread (par : Par) (c : Chunk) (o : Objects) : Thread → List Px → List (Px × Option Acc)
  | _, [] => []
  | t, p :: ps =>
    let r := pixel par c o t p
    (p, r.2) :: thread par c o r.1 ps

/-- lsm-hl.c:258-498 for one feature: the pixels and their results, `none` where all metrics are nodata.
`sched` are the pixels of the threads. -/
def landscape (par : Par) (c : Chunk) (fuel : Nat) (sched : List (List Px)) : Option (Objects × List (Px × Option Acc)) :=
  (Verif.Ccl.objects (classImage par c) par.minpatch fuel).map fun o =>
    (o, if o.nobj < 1 then sched.flatten.map fun p => (p, none)
      else sched.flatMap (thread par c o Thread.init))

/-- Conversion of `int` to `short`. -/
def wrap (x : Int) : Int := (x + 32768) % 65536 - 32768

/-- lsm-hl.c:437 (UCI). -/
def uci (o : Objects) (p : Px) : Int := wrap (o.obj p)

/-- lsm-hl.c:438 (AVG). -/
def avg (a : Acc) : Out Int := short a.mx

/-- lsm-hl.c:439 (GEO): `exp` of the mean logarithm is `gm`; without values it is not a number. -/
def geo (gm : List Int → ℚ) (a : Acc) : Out Int := if a.logs.length = 0 then .ub else short (gm a.logs)

/-- lsm-hl.c:440 (MAX). -/
def maxv (a : Acc) : Int := wrap a.maxVal

/-- lsm-hl.c:441-448 (ARE). -/
def are (a : Acc) : Int := if a.n ≤ 32767 then a.n else 32767

/-- lsm-hl.c:449 (STD): `sq` is `sqrt`; with one value, `0/0` is not a number; without values it is
the root of 0 divided by -1, which is 0. -/
def std (sq : ℚ → ℚ) (a : Acc) : Out Int :=
  if a.n = 0 then .ok 0 else if a.n = 1 then .ub else short (sq (Verif.Stats.variance a.vx (a.n : ℚ)))

/-- lsm-hl.c:212: `kernelSize`. -/
def kernelSize (par : Par) : Nat := (par.radius * 2 + 1) * (par.radius * 2 + 1)

/-- lsm-hl.c:453-467 (MPA). -/
def mpa (par : Par) (a : Acc) : Out Int :=
  let k : ℚ := kernelSize par
  let share : Int → ℚ := fun l => (a.area l / k) / (a.total / k)
  let sumarea := (a.uniq.map fun l => share l * (a.area l / k)).sum
  let sumshare := (a.uniq.map share).sum
  if sumshare > 0 then short (sumarea / sumshare * 10000) else .ok 0

/-- lsm-hl.c:470 (EDD): `totaledgelength / sqrt(kernelSize)`, where the length is a multiple of
`1/sqrt(kernelSize)`. -/
def edd (par : Par) (a : Acc) : Out Int := short (a.edge / kernelSize par * 10000)

/-- lsm-hl.c:471 (NBR). -/
def nbr (a : Acc) : Int := wrap a.uniq.length

/-- lsm-hl.c:472 (EMS). -/
def ems (par : Par) (a : Acc) : Out Int := short (a.total / kernelSize par * (a.total / kernelSize par) * 10000)

/-- lsm-hl.c:474-494 (FDI): `lg` is `log`; the patches with one pixel are left out. `log(0)` is minus infinity
and remains so (the denominators are positive); without any patch `0/0` is not a number. -/
def fdi (lg : ℚ → ℚ) (par : Par) (a : Acc) : Out Int :=
  let k : ℚ := kernelSize par
  let large := a.uniq.filter fun l => a.area l ≠ 1
  if a.uniq.length = 0 then .ok 0
  else if large.length = 0 then .ub
  else if large.any fun l => a.perim l == 0 then .ub
  else
    short ((large.map fun l => a.area l / k * (2 * lg ((1 / 4 : ℚ) * a.perim l)) / lg (a.area l)).sum /
      (large.map fun l => a.area l / k).sum * 10000)

end Verif.Lsm
