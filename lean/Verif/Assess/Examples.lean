import Verif.Assess.Props
import Verif.Assess.ClassProps
import Verif.Assess.SizeProps
import Mathlib.Tactic.NormNum
import Mathlib.Algebra.BigOperators.Fin
import Mathlib.Tactic.FinCases

/-!
# Examples for the accuracy assessment
-/

namespace Verif.Assess

/-- Two classes: 8 of 10 and 15 of 20 samples are correct. -/
def exN : Fin 2 → Fin 2 → Nat := ![![8, 2], ![5, 15]]

/-- The first class covers three quarters of the map. -/
def exCnt : Fin 2 → ℚ := ![300, 100]

theorem exN_two : ∀ i, 2 ≤ ∑ j, exN i j := by decide

theorem exCnt_pos : ∀ i, 0 < exCnt i := by intro i; fin_cases i <;> norm_num [exCnt]

theorem exCnt_sum : 0 < ∑ i, exCnt i := by norm_num [exCnt, Fin.sum_univ_two]

example : enough (num exN) = true := (c158_enough exN).2 exN_two

example : ¬ enough (num (![![1, 0], ![5, 15]] : Fin 2 → Fin 2 → Nat)) = true := by
  rw [c158_enough]
  decide

example : ∑ i, ∑ j, adjusted (num exN) exCnt i j = 1 := (c158_shares exN_two (fun i => (exCnt_pos i).le) exCnt_sum).2.2

/-- The adjusted area of the first class: 0.8 of 300 pixels and 0.25 of 100 pixels, of 100 square metres each. -/
example : areaAdjusted 100 (num exN) exCnt 0 = 26500 := by
  norm_num [areaAdjusted, colSum, adjusted, weight, rowSum, area, num, exN, exCnt, Fin.sum_univ_two]

example : ∑ j, areaAdjusted 100 (num exN) exCnt j = ∑ i, exCnt i * 100 :=
  (c158_area exN_two (fun i => (exCnt_pos i).le) exCnt_sum 100 (by norm_num)).2

example : areaInterval 100 (num exN) exCnt 0 =
    1.96 * (Real.sqrt ((Spec.shareVariance exN (fun i => exCnt i / ∑ l, exCnt l) 0 : ℚ) : ℝ) * ((∑ i, exCnt i * 100 : ℚ) : ℝ)) :=
  c158_interval 100 0

/-- The overall accuracy: 0.75 times 0.8 and 0.25 times 0.75. -/
example : oa (adjusted (num exN) exCnt) = some (63 / 80) := by
  rw [(c159_overall exN_two exCnt_pos exCnt_sum).2]
  norm_num [exN, exCnt, Fin.sum_univ_two]

example : ∀ x, pa (adjusted (num exN) exCnt) 0 = some x → 0 ≤ x ∧ x ≤ 1 := fun x =>
  (c159_range _ (fun i j => ((c158_shares exN_two (fun i => (exCnt_pos i).le) exCnt_sum).1 i j).2) x).2.1 0

/-- Counts in proportion to the samples. -/
example : oa (adjusted (num exN) ![30, 60]) = oa (num exN) := by
  refine (c159_proportional exN_two ?_ ?_ 3 ?_).1
  · intro i; fin_cases i <;> norm_num
  · norm_num [Fin.sum_univ_two]
  · intro i; fin_cases i <;> norm_num [exN, Fin.sum_univ_two]

/-- A sample without confusion. -/
example : areaAdjusted 100 (num (![![8, 0], ![0, 15]] : Fin 2 → Fin 2 → Nat)) exCnt 1 = exCnt 1 * 100 :=
  ((c159_perfect (by decide) exCnt_pos exCnt_sum (by decide) 100).2 1).2.2.1

example : uaInterval (num exN) ![8 / 10, 3 / 4] 0 = 1.96 * Real.sqrt ((![8 / 10, 3 / 4] 0 * (1 - ![8 / 10, 3 / 4] 0) / ((∑ j, (exN 0 j : ℚ)) - 1) : ℚ) : ℝ) :=
  (c159_interval (cnt := exCnt) ![8 / 10, 3 / 4]).2 0

/-- As many samples in the map as in the reference. -/
example (p u : Fin 2 → ℚ) : paVariance (num (![![8, 2], ![2, 15]] : Fin 2 → Fin 2 → Nat)) exCnt p u 0 =
    some (Spec.producerVariance (![![8, 2], ![2, 15]] : Fin 2 → Fin 2 → Nat) exCnt p u 0) :=
  c160_producer_partial _ exCnt p u 0 (by decide) (by decide)

/-- The first class has 10 samples in the map and 13 in the reference. -/
example : ∃ v, paVariance (num exN) exCnt ![48 / 53, 3 / 7] ![8 / 10, 3 / 4] 0 = some v ∧ v < Spec.producerVariance exN exCnt ![48 / 53, 3 / 7] ![8 / 10, 3 / 4] 0 := by
  refine c160_producer_violated exN exCnt _ _ 0 (by decide) (by decide) ?_ ?_ ?_ ?_
  · norm_num [exCnt]
  · norm_num
  · norm_num
  · norm_num [Spec.inMap, exN, exCnt, Fin.sum_univ_two]

/-- A single sample of the first class in the reference. -/
example (p u : Fin 2 → ℚ) : paVariance (num (![![1, 9], ![0, 15]] : Fin 2 → Fin 2 → Nat)) exCnt p u 0 = none :=
  c160_single_violated _ exCnt p u 0 (by decide)

example : classes [(3, 1), (1, 1), (3, 3), (2, 2)] = [1, 2, 3] := by decide +kernel

example : confusion [(3, 1), (1, 1), (3, 3), (2, 2)] 3 1 = 1 := by decide +kernel

/-- The rows of the table in another order. -/
example : (arrange [(3, 100), (1, 50), (2, 7)]).map (·.1) = classes [(3, 1), (1, 1), (3, 3), (2, 2)] :=
  (c161_aligned_partial [(3, 1), (1, 1), (3, 3), (2, 2)] (by simp) [(3, 100), (1, 50), (2, 7)] (by decide +kernel)).2.1

/-- The count of class 9 is used for class 3. -/
example : accepted [(1, 50), (2, 7), (9, 1000)] (classes [(3, 1), (1, 1), (3, 3), (2, 2)]) = true :=
  (c161_mismatch_violated [(3, 1), (1, 1), (3, 3), (2, 2)] [1, 2] 3 (by decide +kernel) (by simp) [50, 7] rfl 9 1000 (by decide)).1

/-- Three classes with shares of 0.9, 0.09 and 0.01, accuracies one half. -/
noncomputable def exT : List Row := [⟨900, 1 / 2⟩, ⟨90, 1 / 2⟩, ⟨10, 1 / 2⟩]

theorem exT_count : ∀ r ∈ exT, 0 < r.count := by
  intro r hr
  simp only [exT, List.mem_cons, List.not_mem_nil, or_false] at hr
  rcases hr with rfl | rfl | rfl <;> norm_num

theorem exT_sum : (exT.map (·.count)).sum = 1000 := by norm_num [exT]

/-- With a standard error of 0.01: at most 2500 samples. -/
example : number exT (1 / 100) * (1 / 100 : ℝ) ^ 2 ≤ 1 / 4 :=
  c162_bound exT (fun r hr => (exT_count r hr).le) (by rw [exT_sum]; norm_num) _ (by norm_num)

theorem round_int (z : Int) : roundR z = z := by
  unfold roundR
  simp

theorem exT_prop (r : Row) (n : Nat) (z : Int) (h : (n : ℚ) * (r.count / 1000) = z) : proportional exT n r = z := by
  unfold proportional share
  rw [exT_sum, h, round_int]

/-- 1000 samples, at least 50 in each class: the last class gets 50 instead of 10, the others 0.9 and 0.09 of 950. -/
theorem exT_advise : advise exT 1000 50 = .compromise [50] [855, 171 / 2] := by
  have h1 := exT_prop ⟨900, 1 / 2⟩ 1000 900 (by norm_num)
  have h2 := exT_prop ⟨90, 1 / 2⟩ 1000 90 (by norm_num)
  have h3 := exT_prop ⟨10, 1 / 2⟩ 1000 10 (by norm_num)
  have s : ∀ r, share exT r = r.count / 1000 := fun r => by unfold share; rw [exT_sum]
  have e1 : (exT.any fun r => decide (proportional exT 1000 r < (50 : Nat))) = true := by
    have g : ∀ f : Row → Int, f ⟨900, 1 / 2⟩ = 900 → f ⟨90, 1 / 2⟩ = 90 → f ⟨10, 1 / 2⟩ = 10 → (([⟨900, 1 / 2⟩, ⟨90, 1 / 2⟩, ⟨10, 1 / 2⟩] : List Row).any fun r => decide (f r < (50 : Nat))) = true := by
      generalize (1 / 2 : ℝ) = x; intro f a b c; simp [a, b, c, List.filter_cons]
    exact g _ h1 h2 h3
  have e2 : (exT.filter fun r => decide (proportional exT 1000 r < (50 : Nat))) = [⟨10, 1 / 2⟩] := by
    have g : ∀ f : Row → Int, f ⟨900, 1 / 2⟩ = 900 → f ⟨90, 1 / 2⟩ = 90 → f ⟨10, 1 / 2⟩ = 10 → (([⟨900, 1 / 2⟩, ⟨90, 1 / 2⟩, ⟨10, 1 / 2⟩] : List Row).filter fun r => decide (f r < (50 : Nat))) = [⟨10, 1 / 2⟩] := by
      generalize (1 / 2 : ℝ) = x; intro f a b c; simp [a, b, c, List.filter_cons]
    exact g _ h1 h2 h3
  have e3 : (exT.filter fun r => decide (((50 : Nat) : Int) ≤ proportional exT 1000 r)) = [⟨900, 1 / 2⟩, ⟨90, 1 / 2⟩] := by
    have g : ∀ f : Row → Int, f ⟨900, 1 / 2⟩ = 900 → f ⟨90, 1 / 2⟩ = 90 → f ⟨10, 1 / 2⟩ = 10 → (([⟨900, 1 / 2⟩, ⟨90, 1 / 2⟩, ⟨10, 1 / 2⟩] : List Row).filter fun r => decide (((50 : Nat) : Int) ≤ f r)) = [⟨900, 1 / 2⟩, ⟨90, 1 / 2⟩] := by
      generalize (1 / 2 : ℝ) = x; intro f a b c; simp [a, b, c, List.filter_cons]
    exact g _ h1 h2 h3
  unfold advise
  simp only
  rw [if_pos e1, e2, e3]
  simp only [List.map_cons, List.map_nil, s]
  norm_num

example : (50 : ℚ) + (855 + 171 / 2) < 1000 := by
  have := c163_total_violated exT exT_count 1000 50 [50] [855, 171 / 2] exT_advise (by norm_num)
  norm_num at this ⊢

example : ∀ x ∈ [855, (171 / 2 : ℚ)], ((50 : Nat) : ℚ) ≤ x := (c163_minimum exT 1000 50 [50] [855, 171 / 2] exT_advise).2.1

/-- At least 5 samples: proportional allocation. -/
example : advise exT 1000 5 = .proportional [900, 90, 10] := by
  have h1 := exT_prop ⟨900, 1 / 2⟩ 1000 900 (by norm_num)
  have h2 := exT_prop ⟨90, 1 / 2⟩ 1000 90 (by norm_num)
  have h3 := exT_prop ⟨10, 1 / 2⟩ 1000 10 (by norm_num)
  have e1 : (exT.any fun r => decide (proportional exT 1000 r < (5 : Nat))) = false := by
    have g : ∀ f : Row → Int, f ⟨900, 1 / 2⟩ = 900 → f ⟨90, 1 / 2⟩ = 90 → f ⟨10, 1 / 2⟩ = 10 → (([⟨900, 1 / 2⟩, ⟨90, 1 / 2⟩, ⟨10, 1 / 2⟩] : List Row).any fun r => decide (f r < (5 : Nat))) = false := by
      generalize (1 / 2 : ℝ) = x; intro f a b c; simp [a, b, c, List.filter_cons]
    exact g _ h1 h2 h3
  unfold advise
  simp only
  rw [if_neg (by rw [e1]; simp)]
  simp only [exT, List.map_cons, List.map_nil] at *
  rw [h1, h2, h3]

end Verif.Assess
