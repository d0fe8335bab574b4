import Verif.Pca.Props

/-! # The hypotheses of the theorems on principal components are met -/

namespace Verif.Pca

/-- An image with uncorrelated bands: the matrix of eigenvectors is the identity. -/
def plain : Image 2 4 :=
  { inp := fun b p => if b = 0 then [12, -8, 2, 2].getD p.val 0 else [1, 1, 6, -4].getD p.val 0
    masked := fun _ => false
    nodata := -9999 }

def plainSolution : Solution 2 :=
  { eval := fun k => if k = 0 then 200 / 3 else 50 / 3
    evec := fun a k => if a = k then 1 else 0 }

example : Eigen plain.cov plainSolution ∧ (∀ a b, plainSolution.evec a b = plainSolution.evec b a) ∧
    plain.projected plainSolution 0 0 = 10 := by
  refine ⟨⟨?_, ?_, ?_⟩, ?_, ?_⟩ <;> decide +kernel

example : (∀ i j, ∑ k, turnedSolution.evec k i * turnedSolution.evec k j = if i = j then 1 else 0) ∧
    turned.projected turnedSolution 0 0 = -14 / 5 := by
  refine ⟨?_, ?_⟩ <;> decide +kernel

example : let m : Image 2 4 := { plain with masked := fun p => decide (p = 3) }
    m.masked 3 = true ∧ (1 : Fin 2).val < numcomp (9 / 10) plainSolution := by
  refine ⟨?_, ?_⟩ <;> decide +kernel

example : ((List.ofFn plainSolution.eval).take 2).sum / (∑ b, plainSolution.eval b) > 9 / 10 ∧
    ∀ k, 0 < k → k < 2 → ((List.ofFn plainSolution.eval).take k).sum / (∑ b, plainSolution.eval b) ≤ 9 / 10 := by
  refine ⟨by decide +kernel, fun k h1 h2 => ?_⟩
  obtain rfl : k = 1 := by omega
  decide +kernel

/-- The case of `c102_all`: no variance, or a share of one. -/
example : numcomp (1 / 2) ({ eval := fun _ => 0, evec := fun _ _ => 0 } : Solution 3) = 3 ∧ numcomp 1 plainSolution = 2 ∧
    numcomp (1 / 2) plainSolution = 1 := by
  refine ⟨?_, ?_, ?_⟩ <;> decide +kernel

end Verif.Pca
