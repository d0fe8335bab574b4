import Mathlib.Algebra.BigOperators.Fin
import Mathlib.Algebra.Order.Field.Rat

/-! # What a linear mixture fit is -/

namespace Verif.Unmix.Spec

/-- The squared deviation of the mixture `d` of the endmembers `Z` (bands × endmembers) from the spectrum
`x`; with `sto` the deviation of the sum of the fractions from one counts as well. -/
def cost {L M : Nat} (sto : Bool) (Z : Fin L → Fin M → ℚ) (x : Fin L → ℚ) (d : Fin M → ℚ) : ℚ :=
  (∑ b, (x b - ∑ j, Z b j * d j) ^ 2) + if sto then (1 - ∑ j, d j) ^ 2 else 0

/-- `s` is a least squares fit with the endmembers in `P`: the residual is orthogonal to each of them. -/
def Fits {L M : Nat} (sto : Bool) (Z : Fin L → Fin M → ℚ) (x : Fin L → ℚ) (P : Fin M → Bool)
    (s : Fin M → ℚ) : Prop :=
  ∀ i, P i = true →
    (∑ b, Z b i * (x b - ∑ j, Z b j * if P j then s j else 0)) +
      (if sto then 1 - ∑ j, (if P j then s j else 0) else 0) = 0

end Verif.Unmix.Spec
