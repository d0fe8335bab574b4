import Verif.Pipeline.Model

namespace Verif.Pipeline.Spec

/-- What unit `u` contributes to the output: the result of computing its input data, if there is
at least one product. -/
def product {I O : Type} (rd : Int → I) (cmp : I → Option O × Nat) (u : Nat) : List (Int × O) :=
  match (cmp (rd u)).1 with
  | some o => if (cmp (rd u)).2 > 0 then [((u : Int), o)] else []
  | none => []

/-- The complete output: that of all units, in ascending order. -/
def output {I O : Type} (rd : Int → I) (cmp : I → Option O × Nat) (n : Nat) : List (Int × O) :=
  (List.range n).flatMap (product rd cmp)

end Verif.Pipeline.Spec
