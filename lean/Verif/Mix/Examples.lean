import Verif.Mix.ClassProps

/-!
# Concrete cases for the theorems about synthetic mixtures
-/

namespace Verif.Mix.Examples

open Verif.Mix Verif.Mix.Spec Verif.Float
open Verif.Str (Out)

/-- There is a rounding to double precision that rounds the tie 1 − 2^-54 to 1. -/
theorem rounding : ∃ fl : ℚ → ℚ, (∀ x, Nearest 53 x (fl x)) ∧ fl (1 - 1 / 2 ^ 54) = 1 := by
  obtain ⟨fl, h⟩ := exists_round 53 (by norm_num)
  refine ⟨fun x => if x = 1 - 1 / 2 ^ 54 then 1 else fl x, ?_, by simp⟩
  intro x
  simp only
  split
  · rename_i hx
    subst hx
    refine ⟨rep_one, ?_⟩
    intro f hf
    rw [show (1 : ℚ) - 1 / 2 ^ 54 - 1 = -(1 / 2 ^ 54) by ring, abs_neg, abs_of_pos (by positivity)]
    by_contra hn
    push Not at hn
    obtain ⟨n1, n2⟩ := abs_lt.1 hn
    obtain ⟨k, hk⟩ := rep_multiple (p := 53) (by norm_num) hf (e := -53) (by
      rw [abs_of_pos (by norm_num at n1 n2 ⊢; linarith)]
      norm_num at n1 n2 ⊢
      linarith)
    rw [hk] at n1 n2
    have e : (2 : ℚ) ^ (-53 : ℤ) = 1 / 2 ^ 53 := by rw [zpow_neg]; norm_num
    rw [e] at n1 n2
    have a1 : (k : ℚ) < 2 ^ 53 := by
      have : (k : ℚ) * (1 / 2 ^ 53) < 1 := by linarith
      have h2 : (k : ℚ) * (1 / 2 ^ 53) * 2 ^ 53 < 1 * 2 ^ 53 := mul_lt_mul_of_pos_right this (by positivity)
      calc (k : ℚ) = (k : ℚ) * (1 / 2 ^ 53) * 2 ^ 53 := by ring
        _ < 1 * 2 ^ 53 := h2
        _ = 2 ^ 53 := by ring
    have a2 : (2 ^ 53 - 1 : ℚ) < k := by
      have : (1 - 1 / 2 ^ 53 : ℚ) < (k : ℚ) * (1 / 2 ^ 53) := by
        have e2 : (1 / 2 ^ 53 : ℚ) = 1 / 2 ^ 54 + 1 / 2 ^ 54 := by norm_num
        linarith
      have h2 : (1 - 1 / 2 ^ 53 : ℚ) * 2 ^ 53 < (k : ℚ) * (1 / 2 ^ 53) * 2 ^ 53 := mul_lt_mul_of_pos_right this (by positivity)
      calc (2 ^ 53 - 1 : ℚ) = (1 - 1 / 2 ^ 53 : ℚ) * 2 ^ 53 := by norm_num
        _ < (k : ℚ) * (1 / 2 ^ 53) * 2 ^ 53 := h2
        _ = k := by ring
    have b1 : k < 2 ^ 53 := by exact_mod_cast a1
    have b2 : (2 ^ 53 - 1 : ℤ) < k := by exact_mod_cast a2
    omega
  · exact h x

theorem rep_half : Rep 53 (1 / 2) := ⟨1, -1, by norm_num, by norm_num⟩

theorem rep_quarter : Rep 53 (1 / 4) := ⟨1, -2, by norm_num, by norm_num⟩

/-- A mixture of three samples with the random numbers 1/2 and 1/4: the response is 1/2. -/
example : ∃ fl : ℚ → ℚ, ∃ l, fractions fl [1 / 2, 1 / 4] = .ok l ∧ l.length = 3 ∧ l.headD 0 = 1 / 2 := by
  obtain ⟨fl, h, ht⟩ := rounding
  have hu : ∀ u ∈ [(1 / 2 : ℚ), 1 / 4], Rep 53 u ∧ 0 ≤ u ∧ u < 1 := by
    intro u hu
    simp only [List.mem_cons, List.not_mem_nil, or_false] at hu
    rcases hu with rfl | rfl
    · exact ⟨rep_half, by norm_num, by norm_num⟩
    · exact ⟨rep_quarter, by norm_num, by norm_num⟩
  obtain ⟨l, a, b, -, -⟩ := c155_fractions h ht _ hu
  refine ⟨fl, l, a, by simpa using b, ?_⟩
  have := c155_target h _ _ hu a
  simpa using this

example : fractions id [1 / 2, 1 / 4] = .ok [1 / 2, 1 / 8, 3 / 8] := by decide +kernel

example : 100 * ([1 / 2, 1 / 2] : List ℚ).sum ≤ profile [100, 300] [1 / 2, 1 / 2] ∧ profile [100, 300] [1 / 2, 1 / 2] ≤ 300 * ([1 / 2, 1 / 2] : List ℚ).sum :=
  c155_profile [100, 300] [1 / 2, 1 / 2] 100 300 (by norm_num) (by norm_num) rfl

/-- Three classes with 1, 2 and 3 samples; target 1. -/
def response : List ℚ := [3, 2, 1, 3, 2, 3]

example : ([1, 2, 3] : List ℚ).Pairwise (· < ·) := by
  have := (c157_classes response).1
  rwa [show classesOf response = [1, 2, 3] by decide +kernel] at this

example : classesOf response = [1, 2, 3] ∧ counts response = [1, 2, 3] := by decide +kernel

example : classP false 1 response (classesOf response) .proportional = some [(2, 2 / 5), (3, 3 / 5)] := by decide +kernel

example : Proportional response [2, 3] 2 (2 / 5) := by unfold Proportional; decide +kernel

example : classP true 1 response (classesOf response) .equalized = some [(1, 1 / 3), (2, 1 / 3), (3, 1 / 3)] := by decide +kernel

example : classP true 1 response [3, 1] (.custom [9 / 10, 1 / 10]) = some [(3, 9 / 10), (1, 1 / 10)] := by decide +kernel

/-- USE_CLASSES = 3 1: class 3 has the probability of class 1, class 1 that of class 2. -/
example : classP true 1 response [3, 1] .proportional = some [(3, 1 / 3), (1, 2 / 3)] := by decide +kernel

/-- The target 1 with classes 2 and 3, drawn without replacement. -/
example : ∀ m, mixture id 1 [2, 3] [1 / 2, 1 / 4] = .ok m → label m = share 1 m.classIds m.fractions := fun m h =>
  c156_response_partial id 1 [1, 2, 3] [2, 3] [1 / 2, 1 / 4] m (by decide +kernel) h

example : ∃ m, mixture id 1 [2, 3] [1 / 2, 1 / 4] = .ok m ∧ label m = 1 / 2 := by
  refine ⟨⟨[1, 2, 3], [1 / 2, 1 / 8, 3 / 8]⟩, ?_, rfl⟩
  have : fractions id [1 / 2, 1 / 4] = .ok [1 / 2, 1 / 8, 3 / 8] := by decide +kernel
  unfold mixture
  rw [this]
  rfl

/-- Only samples of class 1, but the response is 1/2. -/
example : ∃ fl : ℚ → ℚ, ∀ m, mixture fl 1 [1] [1 / 2] = .ok m → label m < share 1 m.classIds m.fractions := by
  obtain ⟨fl, h, ht⟩ := rounding
  refine ⟨fl, fun m hm => ?_⟩
  have hu : ∀ u ∈ [(1 / 2 : ℚ)], Rep 53 u ∧ 0 ≤ u ∧ u < 1 := by
    intro u hu
    rw [List.mem_singleton] at hu
    subst hu
    exact ⟨rep_half, by norm_num, by norm_num⟩
  have e : fl (1 / 2) = 1 / 2 := eq_of_nearest_rep rep_half (h _)
  have hd : drawFractions fl [1 / 2] = [1 / 2] := by
    have : nextFraction fl [] (1 / 2) = 1 / 2 := by
      unfold nextFraction
      simp only [targetRange, List.length_nil, if_true, sub_zero, add_zero, fl_one h, mul_one, e]
    simpa [drawFractions] using this
  have hf : fractions fl [1 / 2] = .ok [1 / 2, 1 / 2] := by
    unfold fractions
    simp only
    rw [hd]
    have s1 : sumFl fl [1 / 2] = 1 / 2 := by unfold sumFl; simp only [List.foldl_cons, List.foldl_nil, zero_add, e]
    have s2 : (1 : ℚ) - 1 / 2 = 1 / 2 := by norm_num
    rw [s1, s2, e]
    have s3 : sumFl fl ([1 / 2] ++ [1 / 2]) = 1 := by
      rw [sumFl_snoc, s1, show (1 / 2 : ℚ) + 1 / 2 = 1 by norm_num, fl_one h]
    rw [if_pos s3]
    rfl
  obtain ⟨m1, m2⟩ := mixture_ok hm
  rw [hf] at m2
  injection m2 with m2
  exact c156_within_violated h 1 [1] [1 / 2] hu ht m hm 0 rfl (1 / 2) (by rw [← m2]; rfl) (by norm_num)

example : responses 2 [⟨[1, 2], [1 / 4, 3 / 4]⟩, ⟨[1, 3], [1 / 2, 1 / 2]⟩, ⟨[1], [1]⟩] true 1 [1, 2] = [1 / 4, 1 / 2, 1, 0] := by decide +kernel

end Verif.Mix.Examples
