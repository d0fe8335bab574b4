import Mathlib.Analysis.InnerProductSpace.PiL2
import Mathlib.Analysis.InnerProductSpace.Projection.Minimal
import Verif.Merge.Spec

/-!
# There is a least-squares solver
-/

namespace Verif.Merge

open Spec

/-- The design matrix. -/
noncomputable def design (l : List Row) : Coef →ₗ[ℝ] EuclideanSpace ℝ (Fin l.length) where
  toFun c := WithLp.toLp 2 fun k => est c l[k].g l[k].r l[k].n
  map_add' a b := by
    ext k
    simp [est]
    ring
  map_smul' a b := by
    ext k
    simp [est]
    ring

theorem exists_solver : ∃ ls : List Row → Coef, LeastSquares ls := by
  have h : ∀ l : List Row, ∃ c : Coef, ∀ c', sse l c ≤ sse l c' := by
    intro l
    set K := LinearMap.range (design l) with hK
    have hc : IsComplete (K : Set (EuclideanSpace ℝ (Fin l.length))) := Submodule.complete_of_finiteDimensional K
    obtain ⟨v, hv, hmin⟩ := K.exists_norm_eq_iInf_of_complete_subspace hc (WithLp.toLp 2 fun k : Fin l.length => l[k].y)
    obtain ⟨c, rfl⟩ := hv
    have hs : ∀ c, sse l c = ‖(WithLp.toLp 2 fun k : Fin l.length => l[k].y) - design l c‖ ^ 2 := by
      intro c
      rw [EuclideanSpace.real_norm_sq_eq]
      have : sse l c = ∑ k : Fin l.length, (l[k].y - est c l[k].g l[k].r l[k].n) ^ 2 := by
        rw [← List.sum_ofFn]
        unfold sse
        congr 1
        apply List.ext_getElem
        · simp
        · intro i h1 h2
          simp [est]
      rw [this]
      rfl
    refine ⟨c, fun c' => ?_⟩
    rw [hs, hs, hmin]
    apply pow_le_pow_left₀
    · exact Real.iInf_nonneg fun _ => norm_nonneg _
    · exact ciInf_le (f := fun w : K => ‖(WithLp.toLp 2 fun k : Fin l.length => l[k].y) - w‖)
        ⟨0, by rintro _ ⟨w, rfl⟩; exact norm_nonneg _⟩ ⟨design l c', c', rfl⟩
  choose ls hls using h
  exact ⟨ls, hls⟩

end Verif.Merge
