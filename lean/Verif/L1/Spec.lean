import Mathlib.Analysis.SpecialFunctions.Exp
import Verif.Stats.Spec

/-!
# Level 1 data: what is to be computed
-/

namespace Verif.L1.Spec

/-- The pixel is void: a band other than the cirrus band has the digital number 0. `dn b` is the digital number of band `b` of `nb`. -/
def Void (dn : ℕ → ℕ) (cirrus : ℤ) (nb : ℕ) : Prop := ∃ b < nb, (b : ℤ) ≠ cirrus ∧ dn b = 0

/-- A band other than the temperature is saturated. -/
def Saturated (dn : ℕ → ℕ) (temp : ℤ) (sat nb : ℕ) : Prop := ∃ b < nb, (b : ℤ) ≠ temp ∧ sat ≤ dn b

/-- The largest of three numbers exceeds the second largest by more than `g`: one of them exceeds both others by more than `g`. -/
def StandsOut (g a b c : ℝ) : Prop := (a > b + g ∧ a > c + g) ∨ (b > a + g ∧ b > c + g) ∨ (c > a + g ∧ c > b + g)

/-- Sample standard deviation. -/
noncomputable def sampleSd (l : List ℝ) : ℝ := √(Stats.Spec.moment 2 l / (l.length - 1))

/-- Planck's law with the constants of a sensor: radiance of a body of temperature `T`. -/
noncomputable def planck (k1 k2 T : ℝ) : ℝ := k1 / (Real.exp (k2 / T) - 1)

end Verif.L1.Spec
