import Verif.Table.Model
import Verif.Stats.Spec

/-!
# Specification of tables
-/

namespace Verif.Table.Spec

/-- `m` is the smallest of the values. -/
def IsMin {K : Type} [LE K] (l : List K) (m : K) : Prop := m ∈ l ∧ ∀ x ∈ l, m ≤ x

/-- `m` is the largest of the values. -/
def IsMax {K : Type} [LE K] (l : List K) (m : K) : Prop := m ∈ l ∧ ∀ x ∈ l, x ≤ m

/-- The items of a line that are table cells. -/
def cells (rowNames : Bool) (line : List String) : List String := if rowNames then line.tail else line

end Verif.Table.Spec
