import Verif.Lib.Props

/-! # The hypotheses of the theorems can be met -/

namespace Verif.Lib

open Spec

/-- A library with two rows of two features. -/
def exLib : Library := [fun f => if f = 0 then 100 else 300, fun f => if f = 0 then 200 else 500]

/-- A pixel. -/
def exPx : Pixel := ⟨fun f => if f = 0 then 110 else 320, fun _ => true⟩

example : Tested true 2 none exPx := ⟨by simp, fun _ _ _ => rfl⟩
example : ¬ Tested true 2 none ⟨fun _ => 0, fun f => decide (f = 0)⟩ := by
  intro h; have := h.2 rfl 1 (by decide); simp at this
example : (valid 2 exPx).Nonempty := ⟨0, by decide⟩
example : Usable false (fun x => x) 2 exLib exPx := ⟨by simp [exLib], by simp⟩

/-- With any function that is positive for positive numbers, such as the square root. -/
example (sq : ℚ → ℚ) (h : ∀ x, 0 < x → 0 < sq x) : Usable true sq 2 exLib exPx := by
  refine ⟨by simp [exLib], fun _ => ⟨by simp [exLib], fun f hf => ?_⟩⟩
  have hf : f < 2 := by simp [valid] at hf; omega
  apply h
  match f, hf with
  | 0, _ => norm_num [exLib, Verif.Stats.Spec.moment, Verif.Stats.Spec.mean]
  | 1, _ => norm_num [exLib, Verif.Stats.Spec.moment, Verif.Stats.Spec.mean]

example : IsLeast {d | ∃ row ∈ exLib, d = meanDiff false (fun x => x) 2 exLib exPx row} 15 := by
  have e : valid 2 exPx = {0, 1} := by decide
  constructor
  · refine ⟨fun f => if f = 0 then 100 else 300, by simp [exLib], ?_⟩
    unfold meanDiff
    rw [e]
    norm_num [unit, exPx]
  · rintro d ⟨row, hrow, rfl⟩
    unfold meanDiff
    rw [e]
    simp only [exLib, List.mem_cons, List.not_mem_nil, or_false] at hrow
    rcases hrow with rfl | rfl
    · norm_num [unit, exPx]
    · norm_num [unit, exPx]

end Verif.Lib
