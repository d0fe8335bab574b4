import Verif.Tile.Spec
import Verif.Sample.Model

/-!
# Specification of the sampling
-/

namespace Verif.Sample.Spec

open Verif.Tile (Cube)
open Verif.Tile.Spec (left top Inside)

/-- y coordinate of the upper edge of row `i` of an image whose upper edge is at `uly`: rows go down. -/
def rowY (g : Geotran) (i : ℤ) : ℚ := g.uly - i * g.res

/-- x coordinate of the left edge of column `j`. -/
def colX (g : Geotran) (j : ℤ) : ℚ := g.ulx + j * g.res

/-- The point lies in column `col` and row `row` of tile (`tx`, `ty`). -/
structure InPixel (c : Cube) (res : ℚ) (tx ty col row : ℤ) (x y : ℚ) : Prop where
  x : left c tx + col * res ≤ x ∧ x < left c tx + (col + 1) * res
  y : top c ty - (row + 1) * res < y ∧ y ≤ top c ty - row * res

/-- The point is not on the edge of a tile. -/
def OffEdges (c : Cube) (x y : ℚ) : Prop := (∀ i, x ≠ left c i) ∧ (∀ j, y ≠ top c j)

/-- The pixel in column `col` and row `row` of its tile is pixel `p` of chunk (`kx`, `ky`). -/
def InChunk (cf : Conf) (col row kx ky p : ℤ) : Prop :=
  ∃ j i, (0 ≤ j ∧ j < cf.cx) ∧ (0 ≤ i ∧ i < cf.cy) ∧ col = kx * cf.cx + j ∧ row = ky * cf.cy + i ∧ p = i * cf.cx + j

/-- The point (map coordinates) is at pixel `p` of the chunk `k`. -/
def At (c : Cube) (cf : Conf) (k : Key) (p : ℤ) (x y : ℚ) : Prop :=
  Inside c k.tx k.ty x y ∧ ∃ col row, InPixel c cf.res k.tx k.ty col row x y ∧ InChunk cf col row k.kx k.ky p

/-- The pixel is used: it is not masked, and its features are valid if that is requested. -/
def Usable (cf : Conf) (ch : Chunk) (p : ℤ) : Prop :=
  (∀ mk, ch.mask = some mk → mk p = true) ∧ (cf.exclude = true → ∀ f ∈ ch.feats, (f p).2 = true)

/-- A row of the three output tables: features, responses, coordinates. -/
abbrev Row := List ℤ × List ℚ × List ℚ

/-- The rows of the three files. -/
def tableRows (st : St) : List Row := st.features.zip (st.response.zip st.coords)

/-- The sample passes the test with the box. -/
def InBox (b : Box) (s : Smp) : Prop := (b.minx ≤ s.x ∧ s.x ≤ b.maxx) ∧ (b.miny ≤ s.y ∧ s.y ≤ b.maxy)

/-- `r` is the row for sample `s` with map coordinates `m`: it comes from the pixel that contains the sample, this
pixel is used and its chunk is processed. -/
def RowFor (c : Cube) (cf : Conf) (load : Key → Chunk) (ks : List Key) (s : Smp) (m : ℚ × ℚ) (r : Row) : Prop :=
  ∃ k ∈ ks, ∃ p, At c cf k p m.1 m.2 ∧ Usable cf (load k) p ∧
    r = ((load k).feats.map (fun f => (f p).1), s.resp, [s.x, s.y])

end Verif.Sample.Spec
