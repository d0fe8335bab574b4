import Verif.Cite.Props

/-!
# Examples: the hypotheses of the theorems are met
-/

namespace Verif.Cite

/-- A time series analysis with NDVI (repeated citations, one index out of bounds). -/
example : fileName (run [0, 21, 21, 99, -1]) = "CITEME_0x32.txt".toList := by decide +kernel
example : listed (run [21, 0, 21, 99, -1]) = [0, 21] := by decide +kernel
/-- C147: a new directory. -/
example := c147_first_partial [21, 0, 21, 99, -1] (fun _ => none) rfl
/-- C147: three runs with different names. -/
example : ∃ l, runs ([[0, 21], [0, 22]] ++ [0, 23] :: [[0, 21]]) (fun _ => none) (fileName (run [0, 23])) = some l ∧ (∀ i, i ∈ l ↔ Used [0, 23] i) ∧ l.Pairwise (· < ·) :=
  c147_history_partial [[0, 21], [0, 22]] [[0, 21]] [0, 23] (by
    intro r hr h
    exfalso
    revert h
    simp only [List.mem_cons, List.not_mem_nil, or_false] at hr
    rcases hr with rfl | rfl <;> decide +kernel)
/-- C147, violated: NDVI against NDVIre1 and NDVIre2. -/
example : fileName (run [0, 43, 44]) = fileName (run [0, 21]) ∧ listed (run [0, 43, 44]) ≠ listed (run [0, 21]) := by decide +kernel
example (d : Dir) : runs [[0, 21], [0, 43, 44]] d = runs [[0, 21]] d :=
  (c147_collision_violated [0, 21] [0, 43, 44] (by unfold Used; decide +kernel) d).2.1

end Verif.Cite
