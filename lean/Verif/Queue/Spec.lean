import Verif.Queue.Model

namespace Verif.Queue.Spec

/-- Abstract bounded FIFO of capacity `cap`: the oldest element comes first. -/
def step (cap : Nat) (l : List (Int × Int)) : Op → Res × List (Int × Int)
  | .enq x y => if l.length = cap then (.failure, l) else (.success x y, l ++ [(x, y)])
  | .deq => match l with
    | [] => (.failure, [])
    | (x, y) :: l => (.success x y, l)

def run (cap : Nat) (l : List (Int × Int)) : List Op → List Res
  | [] => []
  | o :: os => (step cap l o).1 :: run cap (step cap l o).2 os

/-- Coordinates that fit a 16-bit integer. -/
def Fits : Op → Prop
  | .enq x y => (-32768 ≤ x ∧ x < 32768) ∧ (-32768 ≤ y ∧ y < 32768)
  | .deq => True

end Verif.Queue.Spec
