import Mathlib.Algebra.Field.Basic
import Mathlib.Algebra.BigOperators.Group.List.Basic

/-!
# Textbook statistics
-/

namespace Verif.Stats.Spec

variable {K : Type} [Field K]

/-- Arithmetic mean. -/
def mean (l : List K) : K := l.sum / l.length

/-- Sum of the `p`-th powers of the deviations from the mean. -/
def moment (p : Nat) (l : List K) : K := (l.map fun x => (x - mean l) ^ p).sum

/-- Sum of the products of the deviations from the means. -/
def comoment (l : List (K × K)) : K :=
  (l.map fun p => (p.1 - mean (l.map Prod.fst)) * (p.2 - mean (l.map Prod.snd))).sum

/-- Sum of squared residuals of the line `y = a + b * x`. -/
def sse (l : List (K × K)) (a b : K) : K := (l.map fun p => (p.2 - (a + b * p.1)) ^ 2).sum

end Verif.Stats.Spec
