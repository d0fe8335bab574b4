import Verif.L2tile.Written
import Verif.L2tile.Range

/-! # The hypotheses of the theorems on tiles are met -/

namespace Verif.L2tile

open Verif.Tile (Cube Extent)

/-- A datacube with tiles of 20 by 20 pixels of 30 m. -/
def demoCube : Cube := { originX := 0, originY := 0, tileSizeX := 600, tileSizeY := 600, resolution := 30 }

/-- A quality product of 3 rows and 4 columns: the first column is cloudy, the last one has no data. -/
def demoQai : Product :=
  { nx := 4, ny := 3, res := 30, nb := 1, nodata := fun _ => 1, value := fun _ _ k => if k = 0 then 2 else if k = 3 then 1 else 0 }

/-- An overview with 150 m pixels. -/
def demoOvv : Product := { nx := 1, ny := 1, res := 150, nb := 3, nodata := fun _ => 0, value := fun _ _ _ => 7 }

/-- Over the border of the first two columns of tiles. -/
def demo : Dataset := { ulx := 540, uly := -30, qai := demoQai, others := [demoOvv] }

theorem demo_aligned : Aligned demoCube 20 20 demo :=
  ⟨by norm_num [demoCube], rfl, ⟨18, by norm_num [demo, demoCube]⟩, ⟨1, by norm_num [demo, demoCube]⟩,
    by norm_num [demoCube], by norm_num [demoCube], by norm_num, by norm_num⟩

def demoTiles : List Written := tileLevel2 demoCube 20 20 ⟨0, 1, 0, 0⟩ [] demo 60

/-- Both tiles are written: their share of clouds is 50 and 0 percent. -/
example : demoTiles.map (fun w => (w.tx, w.ty)) = [(0, 0), (1, 0)] := by decide +kernel

/-- With a limit of 40 percent, the first one is not. -/
example : (tileLevel2 demoCube 20 20 ⟨0, 1, 0, 0⟩ [] demo 40).map (fun w => (w.tx, w.ty)) = [(1, 0)] := by decide +kernel

/-- The first tile shows the cloudy column at its column 18. -/
example : (demoTiles.head?.bind fun w => w.prods.head?.map fun o => [o.value 0 1 17, o.value 0 1 18, o.value 0 1 19]) = some [1, 2, 0] := by
  decide +kernel

/-- The overview has 4 columns; according to its geotransformation they are 30 m wide. -/
example : (demoTiles.head?.bind fun w => w.prods[1]?.map fun o => (o.cols, o.res)) = some (4, 30) := by decide +kernel

example : (demo.qai :: demo.others)[1]? = some demoOvv ∧ demoOvv.res = (5 : ℤ) * demoCube.resolution ∧ (20 : ℤ) = 5 * 4 := by
  refine ⟨rfl, ?_, rfl⟩
  norm_num [demoOvv, demoCube]

/-- A dataset that is not on the grid. -/
example : (¬ ∃ k : ℤ, ({ demo with ulx := 555 } : Dataset).ulx = demoCube.originX + k * demoCube.resolution) ∧
    (tileLevel2 demoCube 20 20 ⟨0, 1, 0, 0⟩ [] { demo with ulx := 555 } 60).map (fun w => (w.tx, w.ty)) = [(1, 0)] := by
  refine ⟨?_, by decide +kernel⟩
  rintro ⟨k, h⟩
  simp only [demoCube, zero_add] at h
  have : (555 : ℤ) = k * 30 := by exact_mod_cast h
  omega


example : (-10 : ℚ) < 0 ∧ -demoCube.tileSizeY < -10 - 90 ∧ 0 < (-10 : ℚ) + 20 ∧ (-10 : ℚ) + 20 < demoCube.tileSizeY := by
  norm_num [demoCube]

example : FloatOffset (600 : ℤ) (540 : ℤ) (30 : ℤ) 2 := by
  refine ⟨60, 2, ?_, ?_, by norm_num⟩
  · have := Float.nearest_of_rep (Float.rep_int (p := 53) (k := 60) (by norm_num))
    norm_num at this ⊢; exact this
  · have := Float.nearest_of_rep (Float.rep_int (p := 53) (k := 2) (by norm_num))
    norm_num at this ⊢; exact this

/-- The rounded numbers exist. -/
example : ∃ size res t, Float.Nearest 53 (3 / 10) size ∧ Float.Nearest 53 (1 / 10) res ∧ FloatOffset size 0 res t := by
  obtain ⟨rd, h⟩ := Float.exists_round 53 (by norm_num)
  exact ⟨rd (3 / 10), rd (1 / 10), _, h _, h _, _, _, h _, h _, rfl⟩

end Verif.L2tile
