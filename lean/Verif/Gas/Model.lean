import Mathlib.Data.Rat.Floor
import Mathlib.Algebra.Order.Field.Rat
import Mathlib.Algebra.BigOperators.Group.List.Basic
import Verif.Index.Model

/-!
# Model of water vapour estimation and gaseous transmittance for Sentinel-2

`src/modules/lower-level/gas-ll.c`: `fun_wvp` (119-187), `water_vapor` (205-455), `gas_transmittance` (467-555).

`rf` and `rd` are the roundings to float and double. Simplifications: the simplex search of the GNU Scientific Library is an
arbitrary function of the start value and of the input of the block; the sum of the estimates is exact; sizes of images are
multiples of 6 in the theorems, as those of Sentinel-2 are (10980 x 10980). -/

namespace Verif.Gas

open Verif.Index (truncQ)

/-! ## Blocks of 60 m -/

/-- A pixel: quality flags, reflectance of the reference and of the water vapour band, elevation class. -/
structure Px where
  off : Bool
  shadow : Bool
  water : Bool
  nir : Int
  vapor : Int
  dem : Int

/-- An image. `view i j`: the cell of the coarse grid at row `i` and column `j` if its view angle has data (gas-ll.c:338-340,
508-510). -/
structure Scene where
  nx : Nat
  ny : Nat
  px : Nat → Px
  view : Nat → Nat → Option Nat

/-- The pixels of the block with upper left corner in row `i` and column `j`: gas-ll.c:314-317, 392-395, 533-536. -/
def cell (nx i j : Nat) : List Nat :=
  (List.range 6).flatMap fun ii => (List.range 6).map fun jj => (i + ii) * nx + j + jj

/-- gas-ll.c:319-320. -/
def usable (q : Px) : Bool := !(q.off || q.shadow || q.water || decide (q.nir < 1500))

/-- `roundf`. -/
def roundf (x : ℚ) : Int := if 0 ≤ x then ⌊x + 1 / 2⌋ else -⌊-x + 1 / 2⌋

/-- What the estimation of a block depends on: reflectances of the two bands, elevation class and cell of the coarse grid
(gas-ll.c:346-361). -/
structure Input where
  reference : ℚ
  measure : ℚ
  z : Int
  g : Nat

/-- gas-ll.c:312-340. `none`: the block is left out. -/
def input (rf rd : ℚ → ℚ) (s : Scene) (i j : Nat) : Option Input :=
  let us := ((cell s.nx i j).map s.px).filter usable
  if us.length = 0 then none
  else (s.view i j).map fun g =>
    { reference := rf (us.foldl (fun a q => rf (rd (a + rd ((q.nir : ℚ) / 10000)))) 0 / us.length)
      measure := rf (rd (((s.px (i * s.nx + j)).vapor : ℚ) / 10000))
      z := roundf (rf (((us.map Px.dem).sum : ℚ) / us.length))
      g := g }

/-- gas-ll.c:284-405, one thread with its blocks; `w` is the last estimate, the start value of the next search (363).
Result: the blocks with an accepted estimate (383). -/
def thread (inp : Nat → Nat → Option Input) (est : ℚ → Input → ℚ) : ℚ → List (Nat × Nat) → List ((Nat × Nat) × ℚ)
  | _, [] => []
  | w, b :: bs =>
    match inp b.1 b.2 with
    | none => thread inp est w bs
    | some x =>
      if est w x > 7 ∨ est w x ≤ 0 then thread inp est 3 bs else (b, est w x) :: thread inp est (est w x) bs

/-- gas-ll.c:306, the blocks of a row of blocks. -/
def rowBlocks (nx bi : Nat) : List (Nat × Nat) := (List.range ((nx + 5) / 6)).map fun bj => (6 * bi, 6 * bj)

/-- gas-ll.c:277-405; `assign`: the rows of blocks of every thread (304-305, `schedule(guided)`). -/
def estimates (rf rd : ℚ → ℚ) (est : ℚ → Input → ℚ) (s : Scene) (assign : List (List Nat)) : List ((Nat × Nat) × ℚ) :=
  assign.flatMap fun rows => thread (input rf rd s) est 3 (rows.flatMap (rowBlocks s.nx))

/-- gas-ll.c:392-402: the estimates at the original resolution; the image is zero at first. -/
def paint (rf : ℚ → ℚ) (s : Scene) (acc : List ((Nat × Nat) × ℚ)) : Nat → Int :=
  acc.foldl (fun m e => fun p =>
    if p ∈ cell s.nx e.1.1 e.1.2 ∧ (s.px p).off = false then truncQ (rf (e.2 * 1000)) else m p) fun _ => 0

/-- gas-ll.c:421. -/
def average (rf : ℚ → ℚ) (acc : List ((Nat × Nat) × ℚ)) : ℚ := rf ((acc.map Prod.snd).sum / acc.length)

/-- gas-ll.c:205-455 `water_vapor`: value (1/1000 cm) and fill flag of every pixel. -/
def waterVapor (rf rd : ℚ → ℚ) (est : ℚ → Input → ℚ) (s : Scene) (assign : List (List Nat)) (p : Nat) : Int × Bool :=
  let acc := estimates rf rd est s assign
  if acc.length = 0 then (paint rf s acc p, false)
  else if (s.px p).off ∨ paint rf s acc p > 0 then (paint rf s acc p, false)
  else (truncQ (rf (average rf acc * 1000)), true)

/-! ## Table of transmittances -/

/-- 0.01 as a double. -/
def hundredth : ℚ := 5764607523034235 / 2 ^ 59

/-- gas-ll.c:165-167, 517, 521-522: the index in the table. -/
def index (rd : ℚ → ℚ) (x : ℚ) : Int := ⌊rd (x / hundredth)⌋

/-- gas-ll.c:516-517: the index for a pixel of the water vapour map. -/
def vaporIndex (rf rd : ℚ → ℚ) (v : Int) : Int := index rd (rf (rd ((v : ℚ) / 1000)))

/-- gas-ll.c:64-69, 88: the lowest cosine that is tabulated. -/
def lowest (m : ℚ) : Int := ⌊m * 100⌋

/-- gas-ll.c:72-77, 88: the highest one. -/
def highest (m : ℚ) : Int := ⌈m * 100⌉

/-- gas-ll.c:467-555 `gas_transmittance`: `tg kw g` is the transmittance for index `kw` in cell `g` (524-528), scaled. -/
def transmittance (rf rd : ℚ → ℚ) (s : Scene) (tg : Int → Nat → ℚ) (wvp : Nat → Int) : Nat → Int :=
  ((List.range ((s.ny + 5) / 6)).flatMap (rowBlocks s.nx)).foldl (fun m b => fun p =>
    match s.view b.1 b.2 with
    | none => m p
    | some g =>
      if p ∈ cell s.nx b.1 b.2 ∧ (s.px p).off = false then
        truncQ (rf (tg (vaporIndex rf rd (wvp (b.1 * s.nx + b.2))) g * 10000))
      else m p) fun _ => 0

/-! ## Objective -/

/-- The constants of one band: path reflectance, transmittance by scattering, spherical albedo, ozone transmittance. -/
structure Band where
  rhoP : ℚ
  t : ℚ
  s : ℚ
  o : ℚ

/-- gas-ll.c:177-184: surface reflectance from the reflectance at the sensor; `tw` is the water vapour transmittance (both
ways). -/
def surface (b : Band) (tw toa : ℚ) : ℚ :=
  let tmp := (toa - b.rhoP) / (tw * b.o)
  tmp / (b.t + b.s * tmp)

/-- gas-ll.c:119-187 `fun_wvp`, without rounding; `tw b w`: two-way transmittance of band `b` for water vapour `w` (tabulated
or computed). -/
def objective (nir vap : Band) (tw : Bool → ℚ → ℚ) (toaNir toaVap w : ℚ) : ℚ :=
  let w := if w < 0 then 0 else w
  |surface nir (tw false w) toaNir - surface vap (tw true w) toaVap|

end Verif.Gas
