import Mathlib.Algebra.Order.Floor.Ring
import Mathlib.Data.Rat.Floor
import Verif.Tile.Model

/-!
# Model of the sampling

`src/modules/higher-level/sample-hl.c` and the coordinates of rows and columns in
`src/modules/cross-level/brick_base-cl.c`. Coordinates are exact rational numbers.
-/

namespace Verif.Sample

open Verif.Tile (Cube tileFind)

/-! ## Coordinates of a brick -/

/-- Upper left corner and resolution (`geotran[_GT_ULX_]`, `[_GT_ULY_]`, `[_GT_RES_]`, where `_GT_RES_` is the
first resolution, enum-cl.h:62-64), which is positive. -/
structure Geotran where
  ulx : ℚ
  uly : ℚ
  res : ℚ
deriving DecidableEq, Repr

/-- brick_base-cl.c:1624-1627 `get_brick_x`. -/
def brickX (g : Geotran) (j : ℤ) : ℚ := g.ulx + j * g.res

/-- brick_base-cl.c:1658-1661 `get_brick_y`. -/
def brickY (g : Geotran) (i : ℤ) : ℚ := g.uly + i * g.res

/-- meta-ll.c:1167-1168: the brick of a Sentinel-2 image is restricted to the active part of the image that begins
in column `left` and row `top`. -/
def subset (g : Geotran) (left top : ℤ) : Geotran :=
  let g1 := { g with ulx := brickX g left }
  { g1 with uly := brickY g1 top }

/-! ## Samples and chunks -/

/-- A row of the sample table: coordinates and responses. -/
structure Smp where
  x : ℚ
  y : ℚ
  resp : List ℚ
deriving DecidableEq, Repr

/-- Tile and chunk. -/
structure Key where
  tx : ℤ
  ty : ℤ
  kx : ℤ
  ky : ℤ
deriving DecidableEq, Repr

/-- The data of a chunk: `mask` (if there is one) and for each feature value and validity, at pixel `p`. -/
structure Chunk where
  mask : Option (ℤ → Bool)
  feats : List (ℤ → ℤ × Bool)

/-- Size of the chunks in pixels, resolution, and whether pixels with invalid features are excluded. -/
structure Conf where
  cx : ℤ
  cy : ℤ
  res : ℚ
  exclude : Bool

/-- Box of coordinates. -/
structure Box where
  minx : ℚ
  maxx : ℚ
  miny : ℚ
  maxy : ℚ

/-- sample-hl.c:137-140: projected coordinates. `g`: geometry of the tile image. -/
def boxProjected (g : Geotran) (cf : Conf) (k : Key) : Box where
  minx := brickX g (k.kx * cf.cx)
  maxx := brickX g ((k.kx + 1) * cf.cx)
  miny := brickY g ((k.ky + 1) * cf.cy)
  maxy := brickY g (k.ky * cf.cy)

/-- sample-hl.c:145-168: geographic coordinates; `geo`: `warp_any_to_geo`. -/
def boxGeo (geo : ℚ → ℚ → ℚ × ℚ) (g : Geotran) (cf : Conf) (k : Key) : Box :=
  let at' := fun j i => geo (brickX g j) (brickY g i)
  let l := k.kx * cf.cx
  let r := (k.kx + 1) * cf.cx
  let u := k.ky * cf.cy
  let d := (k.ky + 1) * cf.cy
  let minx := min (at' l u).1 (at' l d).1
  let maxx := max (at' r u).1 (at' r d).1
  let miny := min (at' l d).2 (at' r d).2
  let maxy := max (at' l u).2 (at' r u).2
  let upper := at' (l + cf.cx.tdiv 2) u
  let lower := at' (l + cf.cx.tdiv 2) d
  let left := at' l (u + cf.cy.tdiv 2)
  let right := at' r (u + cf.cy.tdiv 2)
  { minx := if left.1 < minx then minx - 2 * |left.1 - minx| else minx
    maxx := if right.1 > maxx then maxx + 2 * |right.1 - maxx| else maxx
    miny := if lower.2 < miny then miny - 2 * |lower.2 - miny| else miny
    maxy := if upper.2 > maxy then maxy + 2 * |upper.2 - maxy| else maxy }

/-- Conversion of a `double` to `int`. -/
def trunc (q : ℚ) : ℤ := if 0 ≤ q then ⌊q⌋ else ⌈q⌉

/-! ## Extraction -/

/-- sample-hl.c:179-229: an active sample: `none`: the loop of `tile_find` does not end; `some none`: the sample is
skipped; `some (some (valid, values))`: it is found in this chunk. `warp`: map coordinates of the sample
(`none`: the conversion fails). -/
def rowOf (cube : Cube) (cf : Conf) (warp : ℚ → ℚ → Option (ℚ × ℚ)) (box : Box) (k : Key) (ch : Chunk) (s : Smp) :
    Option (Option (Bool × List ℤ)) :=
  if s.x < box.minx then some none
  else if s.x > box.maxx then some none
  else if s.y < box.miny then some none
  else if s.y > box.maxy then some none
  else match warp s.x s.y with
    | none => some none
    | some m => (tileFind cube m.1 m.2).bind fun f =>
      if f.idx ≠ k.tx ∨ f.idy ≠ k.ty then some none
      else
        let tj := trunc ((m.1 - f.tilex) / cf.res)
        let ti := trunc ((f.tiley - m.2) / cf.res)
        if tj.tdiv cf.cx ≠ k.kx ∨ ti.tdiv cf.cy ≠ k.ky then some none
        else
          let j := tj - k.kx * cf.cx
          let i := ti - k.ky * cf.cy
          let p := i * cf.cx + j
          if ch.mask.any (fun mk => !mk p) then some none
          else some (some (ch.feats.all (fun f => (f p).2 || !cf.exclude), ch.feats.map fun f => (f p).1))

/-- Sample table (`row_mask`, `n_active_rows`) and the contents of the three files. -/
structure St where
  active : List Bool
  nActive : ℤ
  features : List (List ℤ)
  response : List (List ℚ)
  coords : List (List ℚ)

/-- sample-hl.c:40-62 `append_table`: the rows that are appended. -/
def appendTable (allow : List Bool) (tab : List α) : List α :=
  (allow.zip tab).filterMap fun r => if r.1 then some r.2 else none

/-- sample-hl.c:174-244: all samples. -/
def rows (cube : Cube) (cf : Conf) (warp : ℚ → ℚ → Option (ℚ × ℚ)) (box : Box) (k : Key) (ch : Chunk) :
    List Bool → List Smp → Option (List (Option (Bool × List ℤ)))
  | a :: as, s :: ss =>
    (if a then rowOf cube cf warp box k ch s else some none).bind fun r =>
      (rows cube cf warp box k ch as ss).map (r :: ·)
  | _, _ => some []

/-- sample-hl.c:239-240 `copied[s]`. -/
def isCopied : Option (Bool × List ℤ) → Bool
  | some (true, _) => true
  | _ => false

/-- sample-hl.c:226-229 `smp_features[s]`; `alloc_2D` initialises with 0. -/
def valuesOf (ch : Chunk) : Option (Bool × List ℤ) → List ℤ
  | some (_, f) => f
  | none => ch.feats.map fun _ => 0

/-- sample-hl.c:82-270 `sample_points`, with the box as a parameter. -/
def samplePoints (cube : Cube) (cf : Conf) (warp : ℚ → ℚ → Option (ℚ × ℚ)) (box : Box) (smps : List Smp)
    (k : Key) (ch : Chunk) (st : St) : Option St :=
  if st.nActive = 0 then some st
  else
    (rows cube cf warp box k ch st.active smps).map fun rs =>
      let copied := rs.map isCopied
      let feats := rs.map (valuesOf ch)
      let found := (rs.filter Option.isSome).length
      let st1 := { st with
                   active := List.zipWith (fun a (r : Option (Bool × List ℤ)) => a && r.isNone) st.active rs
                   nActive := st.nActive - found }
      if copied.any id then
        { st1 with
          features := st.features ++ appendTable copied feats
          response := st.response ++ appendTable copied (smps.map (·.resp))
          coords := st.coords ++ appendTable copied (smps.map fun s => [s.x, s.y]) }
      else st1

/-- The chunks are processed one after the other; `load`: data of a chunk, `box`: box of a chunk. -/
def run (cube : Cube) (cf : Conf) (warp : ℚ → ℚ → Option (ℚ × ℚ)) (box : Key → Box) (load : Key → Chunk)
    (smps : List Smp) : List Key → St → Option St
  | [], st => some st
  | k :: ks, st => (samplePoints cube cf warp (box k) smps k (load k) st).bind (run cube cf warp box load smps ks)

/-- table-cl.c:175-177: all rows are active; the output files are empty. -/
def start (smps : List Smp) : St := ⟨smps.map fun _ => true, smps.length, [], [], []⟩

end Verif.Sample
