import Mathlib.Data.Rat.Defs
import Mathlib.Algebra.Order.Field.Rat
import Mathlib.Algebra.BigOperators.Group.List.Basic

/-!
# Specification of synthetic mixtures
-/

namespace Verif.Mix.Spec

/-- The part of a mixture that is made of class `target`: the sum of the fractions of all its samples of this class. -/
def share (target : ℚ) (classIds fractions : List ℚ) : ℚ :=
  (((classIds.zip fractions).filter fun p => p.1 = target).map (·.2)).sum

/-- `p` is proportional to the numbers of samples: the number of samples with class `c`, divided by the number of samples with a class
in `eligible`. -/
def Proportional (response eligible : List ℚ) (c p : ℚ) : Prop :=
  p = (response.count c : ℚ) / ((response.filter fun r => r ∈ eligible).length : ℚ)

end Verif.Mix.Spec
