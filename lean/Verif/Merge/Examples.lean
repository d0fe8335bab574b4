import Mathlib.Tactic.IntervalCases
import Verif.Merge.Exists
import Verif.Merge.Starfm

/-!
# The hypotheses of the theorems about the resolution merge can be met
-/

namespace Verif.Merge

open Spec Verif.Float

/-- An image of 5 x 5 pixels. -/
def image5 : Img where
  nx := 5
  ny := 5
  green := fun k => 100 + 3 * k
  red := fun k => 200 + 2 * k * k
  bnir := fun k => 3000
  off := fun _ => false
  cloudy := fun _ => false

theorem near5 {i' j' : Nat} (h : Near 2 2 2 i' j') : Valid image5 i' j' := by
  unfold Near at h
  exact ⟨by show i' < 5; omega, by show j' < 5; omega, rfl⟩

example : ∃ ls, LeastSquares ls ∧
    predict ls image5 (fun k => 50 + 2 * image5.green k - image5.red k) 2 2 = 50 + 2 * image5.green 12 - image5.red 12 := by
  obtain ⟨ls, h⟩ := exists_solver
  exact ⟨ls, h, c190_exact_partial ls h image5 _ 2 2 50 2 (-1) 0 (fun _ _ => near5) (by norm_num) (by norm_num)
    (fun i' j' _ => by push_cast; ring)⟩

/-- An image of two equal pixels. -/
def image2 : Img where
  nx := 2
  ny := 1
  green := fun _ => 500
  red := fun _ => 500
  bnir := fun _ => 500
  off := fun _ => false
  cloudy := fun _ => false

example : ∃ ls, LeastSquares ls ∧ regression ls image2 (fun k => if k = 0 then 1000 else 2000) [(0, 0), (0, 1)] 0
    ≠ regression ls image2 (fun k => if k = 0 then 1000 else 2000) [(0, 1), (0, 0)] 0 := by
  obtain ⟨ls, h⟩ := exists_solver
  exact ⟨ls, h, c190_schedule_violated ls h image2 _ 500 rfl rfl (fun _ => rfl) (fun _ => rfl) (by norm_num) (fun _ => rfl)
    (fun _ => rfl) (fun _ => rfl) (by norm_num)⟩

/-- An image of two pixels of different brightness. -/
def image2' : Img where
  nx := 2
  ny := 1
  green := fun k => if k = 0 then 500 else 1000
  red := fun k => if k = 0 then 500 else 1000
  bnir := fun k => if k = 0 then 500 else 1000
  off := fun _ => false
  cloudy := fun _ => false

theorem window2 : window image2' 0 0 = [0, 1] := by decide

example : ∃ ls, LeastSquares ls ∧ est (ls (rows image2' (fun _ => 700) 0 0)) (500 / 10000) (500 / 10000) (500 / 10000)
    ≠ 700 / 10000 := by
  obtain ⟨ls, h⟩ := exists_solver
  refine ⟨ls, h, ?_⟩
  have := c190_border_violated ls h image2' (fun _ => 700) 0 0 700 (by norm_num) 0.05 0.05 0.05 1 2 (by norm_num)
    (by norm_num) (by norm_num) (Or.inl (by norm_num)) (by rw [window2]; decide) (fun _ _ => rfl)
    (by
      intro np hnp
      rw [window2] at hnp
      simp only [List.mem_cons, List.not_mem_nil, or_false] at hnp
      rcases hnp with rfl | rfl
      · exact ⟨1, Or.inl rfl, by norm_num [image2'], by norm_num [image2'], by norm_num [image2']⟩
      · exact ⟨2, Or.inr rfl, by norm_num [image2'], by norm_num [image2'], by norm_num [image2']⟩)
    (by norm_num [image2', pix])
    ⟨1, by rw [window2]; decide, by norm_num [image2']⟩
  norm_num [image2', pix] at this ⊢
  exact this

example : 0 ≤ improphePixel image5 (fun k => k) 2 2 ∧ improphePixel image5 (fun k => k) 2 2 ≤ 24 :=
  (c191_range_partial image5 (fun k => k) 2 2 0 24 (near5 (near_self _ _ _)) (by
    rintro i' j' ⟨⟨h1, h2, -⟩, -, -⟩
    have h1' : i' < 5 := h1
    have h2' : j' < 5 := h2
    simp only [pix, image5]
    omega)).1 rfl

/-- The image with a cloud. -/
def image5c : Img := { image5 with cloudy := fun k => decide (k = 7) }

example : improphePixel image5c (fun k => k) 2 2 = improphePixel image5c (fun k => if k = 7 then 9999 else k) 2 2 := by
  apply c191_neighbours
  · exact ⟨by decide, by decide, rfl⟩
  · decide
  · rintro i' j' ⟨-, h, -⟩
    have : pix image5c i' j' ≠ 7 := by simpa [image5c] using h
    rw [if_neg this]

example : 1 / rescale 0.02 0.01 0.03 ≤ 1 / rescale 0.015 0.01 0.03 :=
  c191_weight _ _ _ _ (by norm_num) (by norm_num) (by norm_num)

example : ∃ rn : ℚ → ℚ, (∀ x, Nearest 53 x (rn x)) ∧ impropheRounded rn [3] = 2 := by
  obtain ⟨rn, h⟩ := exists_round 53 (by norm_num)
  exact ⟨rn, h, (c191_rounding_violated rn h).2⟩

example : reduce image5 (fun k => k) 6 = 3 := by
  have := c192_blocks_partial image5 (fun k => (k : ℝ)) 1 1 (by decide) (by decide) (fun _ => rfl)
  rw [show (6 : Nat) = pix image5 1 1 from rfl, this]
  norm_num [blockMean, image5, pix]

/-- The image with a missing pixel. -/
def image5o : Img := { image5 with off := fun k => decide (k = 2) }

example : reduce image5o (fun k => k) 4 = 4 := by
  have := c192_flag_violated image5o (fun k => (k : ℝ)) 0 4 (by decide) (by decide) (by decide)
  have e : pix image5o 0 4 = 4 := rfl
  rw [e] at this
  rw [this]
  norm_num

/-- Reduced and full resolution. -/
noncomputable def pair : Pair := ⟨fun _ => 0.1, fun k => if k = 12 then 0.11 else 0.1, 0.02⟩

example : candidates image5 [pair] (fun _ => 0.2) 2 2 ≠ [] :=
  c192_candidate _ _ _ _ _ (near5 (near_self _ _ _)) (by simp) (by simp [pair]; norm_num) (by simp [pair]; norm_num)

example : 0.19 ≤ starfm image5 [pair] (fun _ => 0.2) 2 2 ∧ starfm image5 [pair] (fun _ => 0.2) 2 2 ≤ 0.22 := by
  apply c192_range _ _ _ _ _ _ _ (near5 (near_self _ _ _)) (by simp) (by simp [pair]; norm_num) (by simp [pair]; norm_num)
  intro q hq i' j' _ _ _
  simp only [List.mem_singleton] at hq
  subst hq
  unfold pair
  simp only
  split <;> norm_num

example : starfm image5 [⟨fun _ => 0.1, fun _ => 0.1, 0.02⟩] (fun _ => 0.2) 2 2 = 0.2 :=
  c192_flat _ _ _ _ _ (near5 (near_self _ _ _)) (by simp) (by simp; norm_num) (by simp; norm_num)
    (by intro q hq i' j' _ _; simp only [List.mem_singleton] at hq; subst hq; rfl) (fun _ _ _ _ => rfl)

example : weight ⟨1, 0.3, 0.3, 0.1⟩ ≤ weight ⟨0, 0.2, 0.2, 0.1⟩ :=
  c192_weight _ _ (by norm_num) (by norm_num [abs_of_pos]) (by norm_num [abs_of_pos]) (by norm_num [abs_of_pos])

example : weight ⟨0, 0.01, 0.01, 0.1⟩ < weight ⟨0, 0.2, 0.2, 0.1⟩ :=
  c192_close_violated _ _ (by norm_num [abs_of_pos]) (by norm_num [abs_of_pos]) (by norm_num [abs_of_pos]) (by norm_num)

example : starfmPixel image5o [pair] (fun _ => -9999) 0 2 = 0 := c192_off_violated _ _ _ _ _ (by decide)

example : 1900 ≤ starfmPixel image5 [pair] (fun _ => 2000) 2 2 ∧ starfmPixel image5 [pair] (fun _ => 2000) 2 2 ≤ 2200 := by
  apply c192_stored _ _ _ _ _ _ _ (near5 (near_self _ _ _)) (by simp) (by simp [pair]; norm_num)
    (by simp [pair]; norm_num)
  intro q hq i' j' _ _ _
  simp only [List.mem_singleton] at hq
  subst hq
  unfold pair
  simp only
  split <;> norm_num

end Verif.Merge
