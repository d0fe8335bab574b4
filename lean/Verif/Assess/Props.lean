import Verif.Assess.Model
import Verif.Assess.Spec
import Mathlib.Tactic.Ring
import Mathlib.Tactic.FieldSimp
import Mathlib.Tactic.Linarith
import Mathlib.Tactic.Positivity
import Mathlib.Algebra.Order.BigOperators.Group.Finset
import Mathlib.Algebra.Order.Field.Basic
import Mathlib.Algebra.BigOperators.Field

/-!
# The accuracy assessment

The confusion matrix has natural numbers `n i j`; `cnt i` pixels are mapped as class `i`.
-/

namespace Verif.Assess

open Spec

variable {k : Nat}

/-- The confusion matrix as numbers. -/
abbrev num (n : Fin k → Fin k → Nat) : Fin k → Fin k → ℚ := fun i j => (n i j : ℚ)

theorem rowSum_num (n : Fin k → Fin k → Nat) (i : Fin k) : rowSum (num n) i = inMap n i := rfl

/-- C158: the program refuses a sample with less than two samples in a map class, and no other. -/
theorem c158_enough (n : Fin k → Fin k → Nat) : enough (num n) = true ↔ ∀ i, 2 ≤ ∑ j, n i j := by
  unfold enough
  rw [decide_eq_true_eq]
  refine forall_congr' fun i => ?_
  unfold rowSum num
  rw [not_lt, ← Nat.cast_sum]
  exact_mod_cast Iff.rfl

section

variable {n : Fin k → Fin k → Nat} {cnt : Fin k → ℚ}

theorem row_two (h : ∀ i, 2 ≤ ∑ j, n i j) (i : Fin k) : 2 ≤ rowSum (num n) i := by
  have := h i
  unfold rowSum num
  rw [← Nat.cast_sum]
  exact_mod_cast this

theorem sum_adjusted (h : ∀ i, 2 ≤ ∑ j, n i j) (i : Fin k) : ∑ j, adjusted (num n) cnt i j = weight cnt i := by
  have := row_two h i
  unfold adjusted
  rw [← Finset.sum_mul, ← Finset.sum_div]
  rw [show ∑ j, num n i j = rowSum (num n) i from rfl, div_self (by linarith), one_mul]

theorem sum_weight (hc : 0 < ∑ i, cnt i) : ∑ i, weight cnt i = 1 := by
  unfold weight
  rw [← Finset.sum_div, div_self hc.ne']

/-- C158: with at least two samples in each map class, the shares of the adjusted confusion matrix are the
estimated area proportions of stratified sampling; they are not negative, each row sums to the mapped share of the class, and all sum to 1. -/
theorem c158_shares (h : ∀ i, 2 ≤ ∑ j, n i j) (h0 : ∀ i, 0 ≤ cnt i) (hc : 0 < ∑ i, cnt i) :
    (∀ i j, adjusted (num n) cnt i j = cell n (fun i => cnt i / ∑ l, cnt l) i j ∧ 0 ≤ adjusted (num n) cnt i j) ∧
      (∀ i, ∑ j, adjusted (num n) cnt i j = cnt i / ∑ l, cnt l) ∧ ∑ i, ∑ j, adjusted (num n) cnt i j = 1 := by
  refine ⟨fun i j => ⟨?_, ?_⟩, fun i => sum_adjusted h i, ?_⟩
  · unfold adjusted cell weight
    rw [rowSum_num, mul_comm]
  · unfold adjusted weight
    have := row_two h i
    exact mul_nonneg (div_nonneg (Nat.cast_nonneg _) (by linarith)) (div_nonneg (h0 i) hc.le)
  · rw [Finset.sum_congr rfl fun i _ => sum_adjusted h i, sum_weight hc]

/-- C158: the adjusted areas of the classes are not negative and sum to the mapped area: the adjustment moves area between classes, it does not
create or lose any. -/
theorem c158_area (h : ∀ i, 2 ≤ ∑ j, n i j) (h0 : ∀ i, 0 ≤ cnt i) (hc : 0 < ∑ i, cnt i) (pixel : ℚ) (hp : 0 ≤ pixel) :
    (∀ j, 0 ≤ areaAdjusted pixel (num n) cnt j) ∧ ∑ j, areaAdjusted pixel (num n) cnt j = ∑ i, cnt i * pixel := by
  obtain ⟨e1, -, e3⟩ := c158_shares h h0 hc
  constructor
  · intro j
    unfold areaAdjusted colSum area
    exact mul_nonneg (Finset.sum_nonneg fun i _ => (e1 i j).2) (Finset.sum_nonneg fun i _ => mul_nonneg (h0 i) hp)
  · unfold areaAdjusted colSum
    rw [← Finset.sum_mul, Finset.sum_comm, e3, one_mul]
    rfl

/-- C158: the half width of the confidence interval of the area is 1.96 standard errors of the estimator of stratified sampling. -/
theorem c158_interval (pixel : ℚ) (j : Fin k) :
    areaInterval pixel (num n) cnt j =
      1.96 * (Real.sqrt ((shareVariance n (fun i => cnt i / ∑ l, cnt l) j : ℚ) : ℝ) * ((∑ i, cnt i * pixel : ℚ) : ℝ)) := by
  have e : (∑ i, proportion (num n) i j * (1 - proportion (num n) i j) / (rowSum (num n) i - 1) * weight cnt i ^ 2) =
      shareVariance n (fun i => cnt i / ∑ l, cnt l) j := by
    unfold shareVariance
    refine Finset.sum_congr rfl fun i _ => ?_
    unfold proportion cell
    rw [rowSum_num]
    unfold weight
    ring
  unfold areaInterval
  rw [e]
  unfold area
  ring

theorem weight_pos (h0 : ∀ i, 0 < cnt i) (hc : 0 < ∑ i, cnt i) (i : Fin k) : 0 < weight cnt i := div_pos (h0 i) hc

/-- C159: the adjusted overall accuracy is the average of the user's accuracies of the classes, weighted with their mapped area; the user's
accuracies are the shares of correct samples in each map class, with and without the adjustment. -/
theorem c159_overall (h : ∀ i, 2 ≤ ∑ j, n i j) (h0 : ∀ i, 0 < cnt i) (hc : 0 < ∑ i, cnt i) :
    (∀ i, ua (num n) i = some ((n i i : ℚ) / ∑ j, (n i j : ℚ)) ∧ ua (adjusted (num n) cnt) i = ua (num n) i) ∧
      oa (adjusted (num n) cnt) = some (∑ i, (cnt i / ∑ l, cnt l) * ((n i i : ℚ) / ∑ j, (n i j : ℚ))) := by
  constructor
  · intro i
    have r := row_two h i
    have w := weight_pos h0 hc i
    have e : ua (num n) i = some ((n i i : ℚ) / ∑ j, (n i j : ℚ)) := by
      unfold ua quot
      rw [if_neg (by linarith)]
      rfl
    refine ⟨e, ?_⟩
    rw [e]
    unfold ua quot
    rw [show rowSum (adjusted (num n) cnt) i = weight cnt i from sum_adjusted h i, if_neg w.ne']
    unfold adjusted
    rw [mul_div_assoc, div_self w.ne', mul_one]
    rfl
  · unfold oa quot
    rw [(c158_shares h (fun i => (h0 i).le) hc).2.2, if_neg one_ne_zero, div_one]
    congr 1
    refine Finset.sum_congr rfl fun i _ => ?_
    unfold adjusted weight
    rw [mul_comm]
    rfl

theorem quot_range {a b : ℚ} (h0 : 0 ≤ a) (h1 : a ≤ b) {x : ℚ} (h : quot a b = some x) : 0 ≤ x ∧ x ≤ 1 := by
  unfold quot at h
  split at h
  · cases h
  · rename_i hb
    injection h with h
    subst h
    have hb : 0 < b := lt_of_le_of_ne (h0.trans h1) (Ne.symm hb)
    exact ⟨div_nonneg h0 hb.le, (div_le_one hb).2 h1⟩

/-- C159: all accuracies of a matrix without negative entries are between 0 and 1. -/
theorem c159_range (m : Fin k → Fin k → ℚ) (hm : ∀ i j, 0 ≤ m i j) (x : ℚ) :
    (oa m = some x → 0 ≤ x ∧ x ≤ 1) ∧ (∀ j, pa m j = some x → 0 ≤ x ∧ x ≤ 1) ∧ ∀ i, ua m i = some x → 0 ≤ x ∧ x ≤ 1 := by
  refine ⟨quot_range (Finset.sum_nonneg fun i _ => hm i i) ?_, fun j => quot_range (hm j j) ?_, fun i => quot_range (hm i i) ?_⟩
  · exact Finset.sum_le_sum fun i _ => Finset.single_le_sum (f := fun j => m i j) (fun j _ => hm i j) (Finset.mem_univ i)
  · exact Finset.single_le_sum (f := fun i => m i j) (fun i _ => hm i j) (Finset.mem_univ j)
  · exact Finset.single_le_sum (f := fun j => m i j) (fun j _ => hm i j) (Finset.mem_univ i)

/-- C159: if the samples are spread in proportion to the mapped area, the adjustment changes nothing: overall and producer's accuracy are the
traditional ones. -/
theorem c159_proportional (h : ∀ i, 2 ≤ ∑ j, n i j) (h0 : ∀ i, 0 < cnt i) (hc : 0 < ∑ i, cnt i) (c : ℚ) (hp : ∀ i, cnt i = c * ∑ j, (n i j : ℚ)) :
    oa (adjusted (num n) cnt) = oa (num n) ∧ ∀ j, pa (adjusted (num n) cnt) j = pa (num n) j := by
  have e : ∀ i j, adjusted (num n) cnt i j = c / (∑ l, cnt l) * num n i j := by
    intro i j
    have r := row_two h i
    unfold adjusted weight
    rw [hp i, show ∑ j, (n i j : ℚ) = rowSum (num n) i from rfl]
    have : rowSum (num n) i ≠ 0 := by linarith
    field_simp
  have hk : c / (∑ l, cnt l) ≠ 0 := by
    intro h'
    rcases div_eq_zero_iff.1 h' with h' | h'
    · rw [Finset.sum_congr rfl fun i _ => hp i, h'] at hc
      simp at hc
    · exact hc.ne' h'
  have q : ∀ a b : ℚ, quot (c / (∑ l, cnt l) * a) (c / (∑ l, cnt l) * b) = quot a b := by
    intro a b
    unfold quot
    by_cases hb : b = 0
    · rw [if_pos hb, if_pos (by rw [hb, mul_zero])]
    · rw [if_neg hb, if_neg (mul_ne_zero hk hb), mul_div_mul_left _ _ hk]
  constructor
  · unfold oa
    simp only [e, ← Finset.mul_sum]
    exact q _ _
  · intro j
    unfold pa colSum
    simp only [e, ← Finset.mul_sum]
    exact q _ _

/-- C159: a sample without any confusion confirms the map: all accuracies are 1, the adjusted area is the mapped area, and the interval of the area
is 0. -/
theorem c159_perfect (h : ∀ i, 2 ≤ ∑ j, n i j) (h0 : ∀ i, 0 < cnt i) (hc : 0 < ∑ i, cnt i) (hd : ∀ i j, i ≠ j → n i j = 0) (pixel : ℚ) :
    oa (adjusted (num n) cnt) = some 1 ∧ ∀ j, pa (adjusted (num n) cnt) j = some 1 ∧ ua (adjusted (num n) cnt) j = some 1 ∧
      areaAdjusted pixel (num n) cnt j = cnt j * pixel ∧ areaInterval pixel (num n) cnt j = 0 := by
  have hr : ∀ i, rowSum (num n) i = n i i := by
    intro i
    unfold rowSum
    rw [Finset.sum_eq_single i]
    · intro j _ hj; simp [num, hd i j (Ne.symm hj)]
    · simp
  have hn : ∀ i, (n i i : ℚ) ≠ 0 := by intro i; have := row_two h i; rw [hr] at this; linarith
  have hcol : ∀ j, colSum (adjusted (num n) cnt) j = weight cnt j := by
    intro j
    unfold colSum
    rw [Finset.sum_eq_single j]
    · unfold adjusted; rw [hr]; show (n j j : ℚ) / _ * _ = _; rw [div_self (hn j), one_mul]
    · intro i _ hi; unfold adjusted; simp [num, hd i j hi]
    · simp
  have hdiag : ∀ j, adjusted (num n) cnt j j = weight cnt j := by
    intro j; unfold adjusted; rw [hr]; show (n j j : ℚ) / _ * _ = _; rw [div_self (hn j), one_mul]
  obtain ⟨o1, o2⟩ := c159_overall h h0 hc
  constructor
  · rw [o2]
    congr 1
    rw [← sum_weight hc]
    refine Finset.sum_congr rfl fun i _ => ?_
    rw [show ∑ j, (n i j : ℚ) = rowSum (num n) i from rfl, hr, div_self (hn i), mul_one]
    rfl
  · intro j
    have w := (weight_pos h0 hc j).ne'
    refine ⟨?_, ?_, ?_, ?_⟩
    · unfold pa quot
      rw [hcol, hdiag, if_neg w, div_self w]
    · rw [(o1 j).2, (o1 j).1, show ∑ l, (n j l : ℚ) = rowSum (num n) j from rfl, hr, div_self (hn j)]
    · unfold areaAdjusted
      rw [hcol]
      unfold weight area
      rw [← Finset.sum_mul]
      have := hc.ne'
      field_simp
    · unfold areaInterval
      have : (∑ i, proportion (num n) i j * (1 - proportion (num n) i j) / (rowSum (num n) i - 1) * weight cnt i ^ 2) = 0 := by
        refine Finset.sum_eq_zero fun i _ => ?_
        unfold proportion
        by_cases hi : i = j
        · subst hi; rw [hr]; show (n i i : ℚ) / _ * (1 - (n i i : ℚ) / _) / _ * _ = 0; rw [div_self (hn i)]; ring
        · simp [num, hd i j hi]
      rw [this]
      simp

/-- C159: the half width of the interval of the overall accuracy is 1.96 times the root of the sum of the variances of the user's accuracies,
weighted with the squares of the shares; that of a user's accuracy 1.96 times the root of its variance. -/
theorem c159_interval (u : Fin k → ℚ) :
    oaInterval (num n) cnt u =
        1.96 * Real.sqrt ((∑ i, (cnt i / ∑ l, cnt l) ^ 2 * (u i * (1 - u i) / ((∑ j, (n i j : ℚ)) - 1)) : ℚ) : ℝ) ∧
      ∀ i, uaInterval (num n) u i = 1.96 * Real.sqrt ((u i * (1 - u i) / ((∑ j, (n i j : ℚ)) - 1) : ℚ) : ℝ) := by
  refine ⟨?_, fun i => by unfold uaInterval rowSum num; ring⟩
  unfold oaInterval weight rowSum num
  rw [show (∑ i, (cnt i / ∑ l, cnt l) ^ 2 * u i * (1 - u i) / (∑ j, (n i j : ℚ) - 1)) =
    ∑ i, (cnt i / ∑ l, cnt l) ^ 2 * (u i * (1 - u i) / ((∑ j, (n i j : ℚ)) - 1)) from Finset.sum_congr rfl fun i _ => by ring]
  ring

theorem estimated_eq (n : Fin k → Fin k → Nat) (cnt : Fin k → ℚ) (j : Fin k) :
    estimated (num n) cnt j = ∑ i, cnt i * ((n i j : ℚ) / inMap n i) := by
  unfold estimated
  refine Finset.sum_congr rfl fun i _ => ?_
  rw [rowSum_num]
  show cnt i / inMap n i * (n i j : ℚ) = _
  ring

theorem term2_eq (n : Fin k → Fin k → Nat) (cnt p : Fin k → ℚ) (j : Fin k) :
    term2 (num n) cnt p j =
      p j ^ 2 * ∑ i ∈ Finset.univ.erase j, cnt i ^ 2 * ((n i j : ℚ) / inMap n i) * (1 - (n i j : ℚ) / inMap n i) / (inMap n i - 1) := by
  unfold term2
  rw [mul_comm, ← Finset.sum_erase_add _ _ (Finset.mem_univ j)]
  rw [if_pos rfl, mul_zero, add_zero]
  congr 1
  refine Finset.sum_congr rfl fun i hi => ?_
  rw [if_neg (Finset.ne_of_mem_erase hi), mul_one, rowSum_num]
  show cnt i ^ 2 * (n i j : ℚ) / inMap n i * (1 - (n i j : ℚ) / inMap n i) / (inMap n i - 1) = _
  ring

/-- C160: for a class with as many samples in the map as in the reference (and more than one), the variance of the producer's accuracy is that of
stratified sampling. Missing: all other classes, see `c160_producer_violated`. -/
theorem c160_producer_partial (n : Fin k → Fin k → Nat) (cnt p u : Fin k → ℚ) (j : Fin k) (hs : ∑ i, n i j = ∑ i, n j i) (h1 : 1 < ∑ i, n j i) :
    paVariance (num n) cnt p u j = some (producerVariance n cnt p u j) := by
  have hc : colSum (num n) j = inMap n j := by
    unfold colSum inMap num
    exact_mod_cast hs
  have h2 : inMap n j - 1 ≠ 0 := by
    unfold inMap
    have : (1 : ℚ) < ∑ i, (n j i : ℚ) := by exact_mod_cast h1
    linarith
  unfold paVariance term1 quot producerVariance
  rw [hc, if_neg h2, term2_eq, estimated_eq]
  rfl

/-- C160, violated: the program divides by the number of samples of the reference class instead of the map class. The variance of the producer's
accuracy is wrong for every class with different numbers, unless the first term is zero; it is too small if the class has more samples in the
reference than in the map. -/
theorem c160_producer_violated (n : Fin k → Fin k → Nat) (cnt p u : Fin k → ℚ) (j : Fin k) (h1 : 1 < ∑ i, n j i) (hs : ∑ i, n j i < ∑ i, n i j)
    (hc : cnt j ≠ 0) (hp : p j ≠ 1) (hu : 0 < u j ∧ u j < 1) (he : (∑ i, cnt i * ((n i j : ℚ) / inMap n i)) ≠ 0) :
    ∃ v, paVariance (num n) cnt p u j = some v ∧ v < producerVariance n cnt p u j := by
  have a1 : (1 : ℚ) < inMap n j := by unfold inMap; exact_mod_cast h1
  have a2 : inMap n j < colSum (num n) j := by unfold inMap colSum num; exact_mod_cast hs
  refine ⟨_, by unfold paVariance term1 quot; rw [if_neg (by linarith)]; rfl, ?_⟩
  rw [term2_eq, estimated_eq]
  unfold producerVariance
  refine mul_lt_mul_of_pos_left ?_ (by positivity)
  refine add_lt_add_left ?_ _
  refine div_lt_div_of_pos_left ?_ (by linarith) (by linarith)
  have b1 : 0 < cnt j ^ 2 := by positivity
  have b2 : 0 < (1 - p j) ^ 2 := by have : 1 - p j ≠ 0 := fun hh => hp (by linarith); positivity
  exact mul_pos (mul_pos (mul_pos b1 b2) hu.1) (by linarith)

/-- C160, violated: a class with a single sample in the reference has no standard error of the producer's accuracy at all, however many samples its
map class has. -/
theorem c160_single_violated (n : Fin k → Fin k → Nat) (cnt p u : Fin k → ℚ) (j : Fin k) (hs : ∑ i, n i j = 1) : paVariance (num n) cnt p u j = none := by
  have a2 : colSum (num n) j = 1 := by unfold colSum num; exact_mod_cast hs
  unfold paVariance term1 quot
  rw [a2, if_pos (by ring)]
  rfl

end

end Verif.Assess
