import Verif.Sun.Julian
import Verif.Sun.Local

/-! # The hypotheses of the theorems on the sun are met -/

namespace Verif.Sun

open Spec Real

/-- 29 February 2000 is a date, 29 February 2100 is none. -/
example : ValidDate 2000 2 29 ∧ ¬ ValidDate 2100 2 29 := by
  unfold ValidDate; decide

/-- The calendar. -/
example : dayNumber 2000 3 1 - dayNumber 2000 2 28 = 2 ∧ dayNumber 2100 3 1 - dayNumber 2100 2 28 = 1 := by
  unfold dayNumber; decide +kernel

/-- With exact arithmetic, the Julian day of 1 January 2000, 12:00, is 2451545. -/
example : julianDay id id 2000 1 1 12 = 2451545 ∧ sunJC id id 2000 1 1 12 = 0 := by decide +kernel

example : ∃ flt dbl : ℚ → ℚ, (∀ x, Float.Nearest 24 x (flt x)) ∧ ∀ x, Float.Nearest 53 x (dbl x) := by
  obtain ⟨f, hf⟩ := Float.exists_round 24 (by norm_num)
  obtain ⟨d, hd⟩ := Float.exists_round 53 (by norm_num)
  exact ⟨f, d, hf, hd⟩

/-- 9:30 and 14:30 are in the same window. -/
example : (6 * (2 : ℤ) - 3 + 1 / 60 : ℚ) ≤ 19 / 2 ∧ (29 / 2 : ℚ) ≤ 6 * (2 : ℤ) + 3 - 1 / 60 := by norm_num

/-- At 45 degrees north, at an equinox, at solar noon. -/
example : 0.001 < cos (rad 45) * sin (zenith 45 0 0) := by
  have e : rad 45 = π / 4 := by unfold rad; ring
  have z0 : rad 0 = 0 := by unfold rad; ring
  have hz := (zenith_eq 45 0 0).1
  rw [e, z0, sin_zero, cos_zero, cos_pi_div_four] at hz
  have hz : cos (zenith 45 0 0) = √2 / 2 := by rw [hz]; ring
  have s := sin_sq_add_cos_sq (zenith 45 0 0)
  have p := (zenith_eq 45 0 0).2
  have q : √2 ^ 2 = 2 := sq_sqrt (by norm_num)
  have hs : sin (zenith 45 0 0) ^ 2 = 1 / 2 := by
    have : cos (zenith 45 0 0) ^ 2 = 1 / 2 := by rw [hz, div_pow, q]; norm_num
    linarith
  rw [e, cos_pi_div_four]
  have h1 : 0.5 ≤ sin (zenith 45 0 0) := by nlinarith
  have h2 : 1 ≤ √2 := by nlinarith [sqrt_nonneg 2]
  nlinarith

/-- On 1 January, 10:00 local time at 165 degrees east. -/
example : (10 : ℝ) < 165 / 15 ∧ ((1 : ℤ) = 365 → (10 : ℝ) - 15 / 15 ≤ 24) := by norm_num

end Verif.Sun
