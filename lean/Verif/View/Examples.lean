import Verif.View.Corners
import Verif.View.Angles
import Verif.View.Cells

/-! # The hypotheses of the theorems on the view geometry are met -/

namespace Verif.View

open Spec Verif.Float

/-- A tilted image: 4 rows of 6 columns, with the four corners cut off. -/
def exOff (q : ℤ × ℤ) : Bool :=
  !([(0, 2), (0, 3), (1, 1), (1, 2), (1, 3), (1, 5), (2, 0), (2, 3), (3, 1), (3, 2)] : List (ℤ × ℤ)).contains q

example : Valid exOff 4 6 (1, 2) := by unfold Valid; decide
example : corners exOff 4 6 = ⟨0, 2, 1, 5, 2, 0, 3, 2⟩ := by decide +kernel
example : let n := (corners exOff 4 6).nadir; (n.ux, n.uy, n.lx, n.ly) = (3, 0, 1, 2) := by decide +kernel

/-- The hypotheses of `c112_distance`, `c113_direction_partial`, `c113_mirrored_violated` and `c113_degrees_violated`: the pixel in the upper left corner is left of the line. -/
example : let n : Nadir := ⟨3, 0, 1, 2⟩
    ¬ (n.ux = n.lx ∧ n.uy = n.ly) ∧ n.uy < n.ly ∧ n.ux ≠ n.lx ∧ 0 < n.dist 0 0 := by
  refine ⟨by simp, by simp, by simp, ?_⟩
  unfold Nadir.dist
  have h : (0 : ℝ) < Nadir.ab ⟨3, 0, 1, 2⟩ := ab_pos _ (by simp)
  apply div_pos _ h
  unfold Nadir.a Nadir.b Nadir.c
  norm_num

example : (0 : ℝ) < 705000 ∧ (0 : ℝ) < 30 := by norm_num

/-- The hypotheses of `c115_off_partial` (images of 10 m) and `c115_neighbour_violated`. -/
example : (∃ flt : ℚ → ℚ, ∀ x, Nearest 24 x (flt x)) ∧ (10 : ℚ) * (500 : Nat) = 5000 ∧ 500 * (21 + 1) < 2 ^ 22 ∧
    InCell 500 21 10979 := by
  refine ⟨exists_round 24 (by norm_num), by norm_num, by norm_num, ?_⟩
  unfold InCell
  norm_num

/-- The hypotheses of `c114_lowsun`: pixel (600, 499) of an image of 10 m is in cell (1, 0). -/
example : ((1 : ℤ) * 5000 ≤ 600 * 10 ∧ (600 : ℤ) * 10 < (1 + 1) * 5000) ∧ ((0 : ℤ) * 5000 ≤ 499 * 10 ∧ (499 : ℤ) * 10 < (0 + 1) * 5000) := by
  decide

end Verif.View
