import Verif.Radtran.Invert
import Verif.Radtran.Phase
import Verif.Radtran.Factor
import Verif.Radtran.Water

/-!
# Concrete cases for the radiative transfer
-/

namespace Verif.Radtran

open Real Verif.Radtran.Spec

-- c175: two wavelengths, one of which absorbs
example : (∀ p ∈ [((0 : ℝ), (1 : ℝ)), (2, 1)], 0 ≤ p.1 ∧ 0 ≤ p.2) ∧ 0 < ([((0 : ℝ), (1 : ℝ)), (2, 1)].map fun p => p.2).sum := by norm_num

-- c175_gas: ozone of this band
example : ozoneTransmitt 1 1 [(0, 1), (2, 1)] = (1 + exp (-2)) / 2 := by
  unfold ozoneTransmitt bandMean; norm_num

-- c175, c176: a hazy atmosphere over bright sand
example : (0 : ℝ) ≤ 0.5 ∧ (0 : ℝ) ≤ 0.1 ∧ (0 : ℝ) < 0.8 ∧ (0 : ℝ) < 0.95 ∧ (0 : ℝ) ≤ 0.4 ∧ (0.4 : ℝ) ≤ 1 := by norm_num

-- c176_uniform_violated: numbers
example : surface 1 1 (sensor 0.1 0.5 0.5 0.2 0.5) 0.1 0.5 0.5 0.2 = 0.5 := by unfold surface sensor; norm_num

example : surfaceEnv 1 1 (sensor 0.1 0.5 0.5 0.2 0.5) 0.1 0.5 1 0.25 0.25 0.2 0.5 = 0.86 := by unfold surfaceEnv sensor; norm_num

-- c177_angle: sun and sensor in the zenith, light comes back
example : backscatter (cos 0) (cos 0) 0 0 = -1 := by unfold backscatter; norm_num

-- c177_aerosols: the asymmetries of FORCE
example : (0 : ℝ) < 0.801 ∧ (0.801 : ℝ) < 1 ∧ (0 : ℝ) < 0.580 ∧ (0.580 : ℝ) < 1 := by norm_num

-- c178
example : (0 : ℝ) < 0.2 + 0.1 ∧ (0 : ℝ) ≤ 1 := by norm_num

-- c179_factor_partial: 60 degrees
example : 1 / 4 ≤ cos (π / 3) ∧ 1 / 2 ≤ cos (π / 3) ∧ 0 ≤ π / 3 ∧ π / 3 ≤ π := by
  rw [cos_pi_div_three]
  have := pi_pos
  refine ⟨by norm_num, le_rfl, by linarith, by linarith⟩

-- c179_low_sun_violated: there are such angles
example : ∃ z : ℝ, 0 ≤ z ∧ z < π / 2 ∧ cos z ≤ 1 / 30 :=
  ⟨arccos (1 / 30), arccos_nonneg _, arccos_lt_pi_div_two.mpr (by norm_num), by rw [cos_arccos (by norm_num) (by norm_num)]⟩

-- c179_bands
example : (⟨"GREEN", 0.1306, 0.0580, 0.0178⟩ : Weights) ∈ weights ∧ "GREEN" ∈ ["VAPOR", "GREEN"] ∧ "VAPOR" ∉ weights.map (·.domain) := by
  refine ⟨by simp [weights], by simp, by simp [weights]⟩

-- c180: 30 degrees, refraction by the law of Snell
example : ∃ t : ℝ, 0 ≤ t ∧ t ≤ π / 2 ∧ sin (π / 6) = 1.3333 * sin t ∧ tan (π / 6) ≠ 1.3333 := by
  refine ⟨arcsin (0.5 / 1.3333), arcsin_nonneg.mpr (by norm_num), arcsin_le_pi_div_two _, ?_, ?_⟩
  · rw [sin_arcsin (by norm_num) (by norm_num), sin_pi_div_six]; norm_num
  · rw [tan_pi_div_six]
    intro h
    have h3 : (1 : ℝ) ≤ √3 := by rw [show (1 : ℝ) = √1 by simp]; exact sqrt_le_sqrt (by norm_num)
    have : 1 / √3 ≤ 1 := by rw [div_le_one (by linarith)]; exact h3
    rw [h] at this
    norm_num at this

-- c181: Greenwich
example : (0 : ℝ) < 51.5 ∧ (51.5 : ℝ) ≤ 90 := by norm_num

-- c182: three columns, two rows
example : visited 3 2 = [(0, 0, 0), (1, 1, 0), (2, 0, 1), (3, 1, 1), (4, 0, 2), (5, 1, 2)] := by decide

end Verif.Radtran
