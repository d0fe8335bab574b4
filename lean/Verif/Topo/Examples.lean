import Verif.Topo.Light
import Verif.Topo.Levels
import Verif.Topo.Grid

/-!
# Concrete cases for the topographic derivatives
-/

namespace Verif.Topo

open Real Verif.Str Verif.Topo.Spec

-- c169_plane: a slope of 45 degrees that rises to the east faces west
example : ∃ s a : ℝ, tan s = √((1 : ℝ) ^ 2 + 0 ^ 2) ∧ sin a * √((1 : ℝ) ^ 2 + 0 ^ 2) = -1 ∧ cos a * √((1 : ℝ) ^ 2 + 0 ^ 2) = -0 := by
  obtain ⟨s, a, -, -, -, h, -, -, -, h'⟩ := c169_plane 100 1 0 30 (by norm_num)
  exact ⟨s, a, h, h' (by norm_num)⟩

-- c170_cosine: the hypothesis is met for every plane
example : ∃ s a b, exposition (plane 100 1 0 30) 30 = .ok (s, a, b) := by
  obtain ⟨s, a, b, h, -⟩ := c169_defined (plane 100 1 0 30) 30
  exact ⟨s, a, b, h⟩

-- c170_flag: the sun in the zenith of flat terrain
example : dot (sun 0 0) (normal 0 0) = 1 := by unfold dot sun normal; simp

-- c171_step, c171_class: three elevations
example : (∀ x ∈ [(1 / 10 : ℝ), 2, 1 / 2], -32 ≤ x ∧ x ≤ 32) ∧ (∀ x ∈ [(1 / 10 : ℝ), 2, 1 / 2], (1 / 10 : ℝ) ≤ x ∧ x ≤ 2) := by
  constructor <;> · intro x hx; simp at hx; rcases hx with rfl | rfl | rfl <;> norm_num

-- c172: blue and SWIR2
example : (3 / 10 : ℝ) / (6 / 10) ≠ (1 / 100) / (95 / 100) := by norm_num

-- c172_stored
example : ∀ c ∈ [(1 / 2 : ℝ), 1], 0 ≤ c ∧ c ≤ 65535 / 10000 := by
  intro x hx; simp at hx; rcases hx with rfl | rfl <;> norm_num

/-- Four by five pixels, one without elevation in the lower left corner. -/
def exGrid : Grid Nat := ⟨fun _ _ => false, fun _ _ => 0⟩

def exValid (i j : Nat) : Bool := ! (decide (i = 2) && decide (j = 1))

-- c173_exposition, c173_kept: the pixels of the border follow the inner pixels
example : (expositionGrid 4 5 exValid (fun i j => 10 * i + j) exGrid).off 0 0 = false ∧ (expositionGrid 4 5 exValid (fun i j => 10 * i + j) exGrid).val 0 0 = 11 ∧
    (expositionGrid 4 5 exValid (fun i j => 10 * i + j) exGrid).off 2 0 = true ∧ (expositionGrid 4 5 exValid (fun i j => 10 * i + j) exGrid).val 3 4 = 23 := by decide

-- c174_found_partial: sea in the corner, found by column and row
example : ocean (-1) 2 2 (fun i j => if i = 0 ∧ j = 0 then 0 else if i = 0 ∧ j = 1 then 7 else -1) 1 1 = 0 := by
  refine c174_found_partial (-1) 2 2 _ 1 1 0 0 (by omega) (by omega) (by omega) (by omega) (by simp) ?_ ?_
  · intro k hk
    have : k = 1 := by omega
    simp [this]
  · intro k hk
    have : k = 1 := by omega
    simp [this]

-- c174_sea, c174_coast_violated
example : (-9999 : ℚ) ≠ 0 ∧ (250 : ℚ) ≠ 0 ∧ (250 : ℚ) ≠ -9999 := by norm_num

/-- C172: a regression with the intercept 0.04 and the slope 0.1, above the path reflectance of 0.01. -/
example : cFactor 0.2 0.01 (some (0.04, 0.1, 0.5, 0.09)) = 0.4 := by
  rw [(c172_regression 0.2 0.01 0.04 0.1 0.5 0.09 (by norm_num) (by norm_num) (by norm_num)).2.1 (by norm_num) (by norm_num)]
  norm_num

end Verif.Topo
