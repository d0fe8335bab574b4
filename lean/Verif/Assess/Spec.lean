import Mathlib.Algebra.BigOperators.Fin
import Mathlib.Algebra.BigOperators.Ring.Finset
import Mathlib.Algebra.Order.Field.Rat

/-!
# Specification of the accuracy assessment

The estimators for stratified random sampling of Olofsson et al. (2013, 2014), which the documentation refers to: `n i j` samples of map
class `i` have the reference class `j`, map class `i` covers the share `w i` of the map.
-/

namespace Verif.Assess.Spec

variable {k : Nat}

/-- Number of samples in map class `i`. -/
def inMap (n : Fin k → Fin k → Nat) (i : Fin k) : ℚ := ∑ j, (n i j : ℚ)

/-- Estimated share of the area with map class `i` and reference class `j` (2014, eq. 4). -/
def cell (n : Fin k → Fin k → Nat) (w : Fin k → ℚ) (i j : Fin k) : ℚ := w i * ((n i j : ℚ) / inMap n i)

/-- Squared standard error of the estimated share of reference class `j` (2014, eq. 10). -/
def shareVariance (n : Fin k → Fin k → Nat) (w : Fin k → ℚ) (j : Fin k) : ℚ :=
  ∑ i, (w i * cell n w i j - cell n w i j ^ 2) / (inMap n i - 1)

/-- Estimated variance of the producer's accuracy (2014, eq. 7): `N i` pixels of map class `i`, user's accuracy `u`, producer's accuracy
`p`. -/
def producerVariance (n : Fin k → Fin k → Nat) (N : Fin k → ℚ) (p u : Fin k → ℚ) (j : Fin k) : ℚ :=
  1 / (∑ i, N i * ((n i j : ℚ) / inMap n i)) ^ 2 *
    (N j ^ 2 * (1 - p j) ^ 2 * u j * (1 - u j) / (inMap n j - 1) +
      p j ^ 2 * ∑ i ∈ Finset.univ.erase j, N i ^ 2 * ((n i j : ℚ) / inMap n i) * (1 - (n i j : ℚ) / inMap n i) / (inMap n i - 1))

end Verif.Assess.Spec
