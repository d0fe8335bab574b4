import Verif.Ovv.Props

/-! # The hypotheses of the theorems can be met -/

namespace Verif.Ovv

example : ∀ p, p ∈ [2, 0, 1] ↔ p < 3 := by intro p; simp; omega

example : size 100 30 = 20 ∧ source 3 30 = 15 := by decide +kernel

/-- 15 rows at 15 m are one and a half rows of the overview. -/
example : ((15 : Nat) : ℚ) * 15 = ((1 : Nat) + 1 / 2) * coarse 15 := by unfold coarse; norm_num

example : (101 : ℚ) / 100 ≤ ((-1500 : Int) : ℚ) / ((-1000 : Int) : ℚ) := by norm_num

example : overview 6 (-9999) 2 2 150 (fun b p => 1000 * b + p) =
    [(0, [.ok 204, .ok 102, .ok 0]), (1, [.ok 204, .ok 102, .ok 0]), (2, [.ok 204, .ok 102, .ok 0]),
      (3, [.ok 204, .ok 102, .ok 0])] := by decide +kernel

end Verif.Ovv
