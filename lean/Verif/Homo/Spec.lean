import Mathlib.Algebra.BigOperators.Group.Finset.Basic
import Mathlib.Analysis.Real.Sqrt

/-!
# Specification of the spectral adjustment

Angles are in radians: 0.0698132 is 4 degrees, 0.2094395 is 12 degrees.
-/

namespace Verif.Homo.Spec

/-- A cluster is similar to a pixel if the angle between them is below 4 degrees, or if it is below
12 degrees and below the angle to the global cluster, which is number 50. -/
def Similar (θ : Nat → ℝ) (s : Nat) : Prop := θ s < 0.0698132 ∨ (θ s < 0.2094395 ∧ θ s < θ 50)

/-- The value predicted by a linear regression with one coefficient per band, and the offset after them. -/
noncomputable def predict (coef : List ℝ) (x : List ℤ) : ℝ :=
  (∑ i ∈ Finset.range x.length, coef.getD i 0 * (x.getD i 0 : ℤ)) + coef.getD x.length 0

end Verif.Homo.Spec
