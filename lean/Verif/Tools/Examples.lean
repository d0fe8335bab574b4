import Verif.Tools.Grid

/-!
# C120-C124: concrete cases
-/

namespace Verif.Tools

open Verif.Tile (demo)
open Verif.Tile.Spec

/-- A small image with nodata −9999: the hypotheses of `c120_histogram_partial`, and what it says. -/
example : ∃ rows, histogram (some ((-9999 : ℤ) : ℚ)) [3, -9999, 7, 3, -5, -9999] = .ok rows ∧ (3, 2) ∈ rows ∧ (-5, 1) ∈ rows ∧ (rows.map Prod.snd).sum = 4 := by
  obtain ⟨_, rows, h1, _, h3, h4⟩ := c120_histogram_partial (-9999) (by norm_num) [3, -9999, 7, 3, -5, -9999] (by decide)
  exact ⟨rows, h1, (h3 3 2).2 (by decide), (h3 (-5) 1).2 (by decide), by rw [h4]; decide⟩

/-- Nodata of a common `uint16` image. -/
example : histogram (some 65535) [3, 4] = .ub := c120_nodata_violated 65535 (Or.inl (by norm_num)) _

/-- Three images of two bands, of different places. -/
def imgA : File := ⟨"/data", 100, 80, 2, [0, 10, 0, 5000, 0, -10], "EPSG:3035"⟩
def imgB : File := ⟨"/data", 100, 80, 2, [900000, 30, 0, 5000, 0, -30], "EPSG:32632"⟩
def imgC : File := ⟨"/data", 100, 80, 3, [0, 10, 0, 5000, 0, -10], "EPSG:3035"⟩

example : ∃ s, stack true false "/data" [imgA, imgB, imgA] = some s ∧ s.bands = [(0, 1), (1, 1), (2, 1), (0, 2), (1, 2), (2, 2)] := ⟨_, rfl, by decide⟩
example : ∃ s, stack true false "/data" [imgA, imgC] = some s ∧ s.bands = [(0, 1), (0, 2), (1, 1), (1, 2), (1, 3)] := ⟨_, rfl, by decide⟩
example : stack true false "/data" [imgA, { imgB with nx := 90 }] = none := by decide
example : imgA.geotran ≠ imgB.geotran ∧ ∃ s, stack true false "/data" [imgA, imgB] = some s ∧ s.geotran = imgA.geotran ∧ s.proj = imgA.proj :=
  ⟨by decide +kernel, c121_position_violated "/data" imgA imgB rfl rfl rfl rfl⟩

instance : DecidableEq Stack := fun a b => by
  cases a; cases b
  simp only [Stack.mk.injEq]
  infer_instance

/-- Tiles of 30 km around a box of about 70 × 40 km. -/
example : ∃ features, grid demo [(4010000, 3450000), (4080000, 3452000), (4011000, 3490000), (4081000, 3492000)] = some features ∧
    ∃ f ∈ features, InTile demo f.x f.y 4050000 3470000 := by
  obtain ⟨features, h1, _, _, h2, _⟩ := c122_grid_partial demo (by decide) (by decide) [(4010000, 3450000), (4080000, 3452000), (4011000, 3490000), (4081000, 3492000)] (by simp)
    (by intro p hp; simp only [List.mem_cons, List.not_mem_nil, or_false] at hp; rcases hp with rfl | rfl | rfl | rfl <;> norm_num [abs_le])
  obtain ⟨f, hf, hin, _⟩ := h2 4050000 3470000 ⟨_, by simp; left; rfl, by norm_num⟩ ⟨(4081000, 3492000), by simp, by norm_num⟩
    ⟨(4010000, 3450000), by simp, by norm_num⟩ ⟨(4081000, 3492000), by simp, by norm_num⟩
  exact ⟨features, h1, f, hf, hin⟩

/-- A projection with curved parallels (bounded, so that it is defined everywhere): the middle of the northern edge of a box of 20 degrees is 100 km above the corners. -/
def curved (p : ℚ × ℚ) : ℚ × ℚ :=
  (4000000 + 70000 * max (-90) (min 90 p.1), 3500000 + 100000 * max (-90) (min 90 p.2) - 1000 * (max (-90) (min 90 p.1)) ^ 2)

example : ∃ features, grid demo [curved (-10, 0), curved (10, 0), curved (-10, 5), curved (10, 5)] = some features ∧
    ∀ f ∈ features, ¬ InTile demo f.x f.y (curved (0, 5)).1 (curved (0, 5)).2 := by
  refine c122_curved_violated demo (by decide) (by decide) curved (-10) 10 0 5 ?_ 0 5 (by norm_num) (by norm_num) ?_
  · intro lon lat
    unfold curved
    have h1 : ∀ z : ℚ, -90 ≤ max (-90) (min 90 z) ∧ max (-90) (min 90 z) ≤ 90 := fun z => ⟨le_max_left _ _, max_le (by norm_num) (min_le_left _ _)⟩
    obtain ⟨a, b⟩ := h1 lon
    obtain ⟨c, d⟩ := h1 lat
    simp only [abs_le]
    refine ⟨⟨by linarith, by linarith⟩, by nlinarith, by nlinarith⟩
  · intro a b ha hb
    rcases ha with rfl | rfl <;> rcases hb with rfl | rfl <;> (unfold curved demo; norm_num)

/-- Tile and pixel of a point; and of a point on the edge between two tiles. -/
example : ∃ (i j : ℤ) (c r : ℕ), findPixel demo 4075005 3390017 = some ((i, j), ((c : ℤ), (r : ℤ))) ∧ i = 2 ∧ j = 3 ∧ c < 3000 ∧ r < 3000 := by
  obtain ⟨i, j, c, r, h, _, _, _, hin⟩ := c123_pixel_partial demo (by decide) 3000 3000 (by norm_num) (by norm_num) (by unfold demo; norm_num) (by unfold demo; norm_num) 4075005 3390017
  obtain ⟨a, b, c', d⟩ := hin 2 3 (by unfold Inside left top demo; norm_num)
  exact ⟨i, j, c, r, h, a, b, c', d⟩

example : ∃ j r, findPixel demo (left demo (2 + 1)) 3390017 = some ((2, j), ((3000 : ℕ) : ℤ), r) :=
  c123_edge_violated demo (by decide) 3000 (by norm_num) (by unfold demo; norm_num) (by decide) 2 (by norm_num) 3390017

/-- A cloudy pixel with low sun. -/
example : inflate 0x0404#16 = [0, 2, 0, 0, 0, 0, 0, 0, 1, 0, 0, 0] := by decide
example : inflate 0x0404#16 = inflate 0x8404#16 := (c124_lossless _ _).2 (by decide)

end Verif.Tools
