import Mathlib.Logic.Relation
import Mathlib.Data.Prod.Basic
import Mathlib.Data.Set.Card

/-! # Segments of a binary image -/

namespace Verif.Ccl.Spec

/-- The positions are neighbours: they differ by at most one in row and column. -/
def Adjacent (p q : Int × Int) : Prop :=
  p.1 - 1 ≤ q.1 ∧ q.1 ≤ p.1 + 1 ∧ p.2 - 1 ≤ q.2 ∧ q.2 ≤ p.2 + 1

/-- The positions are connected by a path of neighbouring positions in `F`. -/
def Connected (F : Int × Int → Prop) (p q : Int × Int) : Prop :=
  F p ∧ Relation.ReflTransGen (fun a b => Adjacent a b ∧ F b) p q

/-- `p` comes before `q` from the upper left to the lower right, row by row. -/
def Before (p q : Int × Int) : Prop := p.1 < q.1 ∨ (p.1 = q.1 ∧ p.2 < q.2)

/-- `p` is the first position of its segment. -/
def First (F : Int × Int → Prop) (p : Int × Int) : Prop :=
  F p ∧ ∀ q, Connected F p q → ¬ Before q p

/-- The number of positions of the segment of `p`. -/
noncomputable def segmentSize (F : Int × Int → Prop) (p : Int × Int) : Nat := Set.ncard {q | Connected F p q}

end Verif.Ccl.Spec
