import Verif.L2tile.MultiProps
import Verif.L2tile.Examples

/-! # The hypotheses of the theorems on grids and continents are met -/

namespace Verif.L2tile

open Verif.Tile.Spec (InExtent)

/-- The usual grid: 30 km tiles with 30 m pixels, chunks of 3 km. -/
example : gridOf (· / ·) 30000 30000 30 = some (1000, 1000) ∧ gridOf (· / ·) 30000 30000 70 = none ∧
    chunkLayout 30000 30000 3000 3000 = some (10, 10) ∧ chunkLayout 30000 30000 7000 3000 = none ∧
    chunkLayout 30000 30000 60000 3000 = none := by decide +kernel

example : ∃ div : ℚ → ℚ → ℚ, ∀ a b, Float.Nearest 53 (a / b) (div a b) := by
  obtain ⟨rd, h⟩ := Float.exists_round 53 (by norm_num)
  exact ⟨fun a b => rd (a / b), fun a b => h _⟩

/-- A tile of 1 degree with pixels of 0.0003 degrees. -/
example : (3 / 10000 : ℚ) ≤ 5 / 1000 ∧ (¬ ∃ k : ℤ, (1 : ℚ) = k * (3 / 10000)) ∧ gridOf (· / ·) 1 1 (3 / 10000) = some (3333, 3333) := by
  refine ⟨by norm_num, ?_, by decide +kernel⟩
  rintro ⟨k, h⟩
  have : (10000 : ℚ) = k * 3 := by linarith
  have : (10000 : ℤ) = k * 3 := by exact_mod_cast this
  omega

/-- Two continents; the image covers tile (1, 0) of the first one, and no tile of the second one. -/
def demoContinents : List Continent :=
  [⟨"EUROPE", demoCube, 20, 20, [(1, 0), (2, 0)], ⟨0, 1, 0, 0⟩, demo⟩, ⟨"ASIA", demoCube, 20, 20, [(9, 9)], ⟨0, 1, 0, 0⟩, demo⟩]

/-- Tile (0, 0), which is no tile of the continent, is written, too. -/
example : ((multi "EQUI7" "EQUI7" [] 100 demoContinents).map fun r => (r.1, r.2.map fun w => (w.tx, w.ty))) =
    [("EUROPE", [(0, 0), (1, 0)])] := by decide +kernel

example : ((multi "EQUI7" "ASIA" [] 100 demoContinents).map fun r => r.1) = [] := by decide +kernel

example : InExtent ⟨0, 1, 0, 0⟩ 0 0 ∧ ((0, 0) : ℤ × ℤ) ∉ [((1 : ℤ), (0 : ℤ)), (2, 0)] ∧ (Valid demoCube demo 0 0).ncard ≠ 0 ∧
    100 * ((Cloudy demoCube demo 0 0).ncard : ℚ) ≤ 100 * (Valid demoCube demo 0 0).ncard := by
  have h : ∃ w ∈ tileLevel2 demoCube 20 20 ⟨0, 1, 0, 0⟩ [] demo 100, w.tx = 0 ∧ w.ty = 0 := by decide +kernel
  obtain ⟨h1, -, h3, h4⟩ := (c104_written demoCube 20 20 ⟨0, 1, 0, 0⟩ [] demo 100 demo_aligned 0 0).1 h
  exact ⟨h1, by decide, h3, h4⟩

end Verif.L2tile
