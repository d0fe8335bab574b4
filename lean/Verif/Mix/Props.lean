import Verif.Mix.Model
import Verif.Mix.Spec
import Verif.FloatErr
import Mathlib.Algebra.Order.Round
import Mathlib.Data.Rat.Floor
import Mathlib.Tactic.Linarith
import Mathlib.Tactic.NormNum
import Mathlib.Tactic.Positivity
import Mathlib.Tactic.Ring
import Mathlib.Algebra.Order.BigOperators.Group.List

/-!
# C155: fractions of synthetic mixtures
-/

namespace Verif.Mix

open Verif.Str (Out)
open Verif.Float Verif.Mix.Spec

theorem nearest_le {p : Nat} {x r c : ℚ} (h : Nearest p x r) (hc : Rep p c) (hx : x ≤ c) : r ≤ c := by
  by_contra hn
  push Not at hn
  have := h.2 c hc
  rw [abs_of_nonpos (by linarith), abs_of_nonpos (by linarith)] at this
  linarith

theorem nearest_ge {p : Nat} {x r c : ℚ} (h : Nearest p x r) (hc : Rep p c) (hx : c ≤ x) : c ≤ r := by
  by_contra hn
  push Not at hn
  have := h.2 c hc
  rw [abs_of_nonneg (by linarith), abs_of_nonneg (by linarith)] at this
  linarith

theorem rep_zero (p : Nat) : Rep p 0 := ⟨0, 0, by simp, by simp⟩

theorem rep_one : Rep 53 1 := by
  have := rep_int (p := 53) (k := 1) (by norm_num)
  simpa using this

/-- The absolute error of a number up to 1. -/
theorem abs_err {x r : ℚ} (h : Nearest 53 x r) (h0 : 0 ≤ x) (h1 : x ≤ 1) : |x - r| ≤ 1 / 2 ^ 54 := by
  have e : |x * 2 ^ 53 - round (x * 2 ^ 53)| ≤ 1 / 2 := abs_sub_round _
  have hr : Rep 53 ((round (x * 2 ^ 53) : ℤ) * (2 : ℚ) ^ (-53 : ℤ)) := by
    refine ⟨round (x * 2 ^ 53), -53, ?_, rfl⟩
    have l1 : (round (x * 2 ^ 53) : ℚ) ≤ 2 ^ 53 + 1 / 2 := by
      have := (abs_le.1 e).1
      nlinarith
    have l0 : (-1 / 2 : ℚ) ≤ (round (x * 2 ^ 53) : ℚ) := by
      have := (abs_le.1 e).2
      nlinarith
    generalize round (x * 2 ^ 53) = z at *
    have m1 : z < 2 ^ 53 + 1 := by
      have : (z : ℚ) < ((2 ^ 53 + 1 : ℤ) : ℚ) := by push_cast; linarith
      exact_mod_cast this
    have m0 : -1 < z := by
      have : ((-1 : ℤ) : ℚ) < (z : ℚ) := by push_cast; linarith
      exact_mod_cast this
    rw [abs_le]
    constructor <;> omega
  refine (h.2 _ hr).trans ?_
  have : x - (round (x * 2 ^ 53) : ℤ) * (2 : ℚ) ^ (-53 : ℤ) = (x * 2 ^ 53 - round (x * 2 ^ 53)) / 2 ^ 53 := by
    rw [zpow_neg]
    norm_num
    ring
  rw [this, abs_div, abs_of_pos (by positivity : (0 : ℚ) < 2 ^ 53)]
  rw [div_le_iff₀ (by positivity)]
  linarith

/-- Numbers up to 1 + 2^-54 are rounded to at most 1. -/
theorem round_le_one {x r : ℚ} (h : Nearest 53 x r) (hx : x ≤ 1 + 1 / 2 ^ 54) : r ≤ 1 := by
  rcases le_or_gt x 1 with h1 | h1
  · exact nearest_le h rep_one h1
  · have := nearest_unique_of_ge (by norm_num) h (2 ^ 52) (-52) (by norm_num) (by norm_num; linarith) (by
      rw [abs_lt]
      norm_num at hx ⊢
      constructor <;> linarith)
    rw [this]
    norm_num

/-- 1 ± 2^-54 is rounded to 1; a tie is rounded to even. -/
theorem round_one {x r : ℚ} (h : Nearest 53 x r) (htie : x = 1 - 1 / 2 ^ 54 → r = 1) (hx : |x - 1| ≤ 1 / 2 ^ 54) : r = 1 := by
  obtain ⟨a, b⟩ := abs_le.1 hx
  by_cases h1 : 1 ≤ x
  · have := nearest_unique_of_ge (by norm_num) h (2 ^ 52) (-52) (by norm_num) (by norm_num; linarith) (by
      rw [abs_lt]
      norm_num at a b ⊢
      constructor <;> linarith)
    rw [this]
    norm_num
  · push Not at h1
    by_cases ht : x = 1 - 1 / 2 ^ 54
    · exact htie ht
    · have hl : 1 - 1 / 2 ^ 54 < x := lt_of_le_of_ne (by linarith) (Ne.symm ht)
      have := nearest_unique (by norm_num) h (2 ^ 53) (-53) (by norm_num) (by
          rw [abs_of_pos (by norm_num at hl; linarith)]
          norm_num at hl ⊢
          linarith) (by
        rw [abs_lt]
        norm_num at hl ⊢
        constructor <;> linarith)
      rw [this]
      norm_num

theorem sumFl_snoc (fl : ℚ → ℚ) (l : List ℚ) (a : ℚ) : sumFl fl (l ++ [a]) = fl (sumFl fl l + a) := by
  unfold sumFl
  rw [List.foldl_append]
  rfl

/-- What is known of the fractions drawn so far. -/
structure Good (fl : ℚ → ℚ) (d : List ℚ) : Prop where
  mem : ∀ f ∈ d, 0 ≤ f ∧ f ≤ 1
  s0 : 0 ≤ sumFl fl d
  s1 : sumFl fl d ≤ 1
  rep : Rep 53 (sumFl fl d)
  err : |d.sum - sumFl fl d| ≤ d.length / 2 ^ 54

/-- A fraction that is not larger than the rest is added. -/
theorem good_snoc {fl : ℚ → ℚ} (hfl : ∀ x, Nearest 53 x (fl x)) {d : List ℚ} (h : Good fl d) {f : ℚ} (f0 : 0 ≤ f)
    (f1 : f ≤ fl (1 - sumFl fl d)) : Good fl (d ++ [f]) := by
  have r0 : 0 ≤ 1 - sumFl fl d := by linarith [h.s1]
  have r1 : 1 - sumFl fl d ≤ 1 := by linarith [h.s0]
  have e := abs_err (hfl (1 - sumFl fl d)) r0 r1
  have g1 : fl (1 - sumFl fl d) ≤ 1 := nearest_le (hfl _) rep_one r1
  have hs : sumFl fl d + f ≤ 1 + 1 / 2 ^ 54 := by
    have := (abs_le.1 e).1
    linarith
  have hs0 : 0 ≤ sumFl fl d + f := by linarith [h.s0]
  have hle := round_le_one (hfl (sumFl fl d + f)) hs
  refine ⟨?_, ?_, ?_, ?_, ?_⟩
  · intro g hg
    rcases List.mem_append.1 hg with hg | hg
    · exact h.mem g hg
    · rw [List.mem_singleton] at hg
      subst hg
      exact ⟨f0, by linarith⟩
  · rw [sumFl_snoc]; exact nearest_ge (hfl _) (rep_zero _) hs0
  · rw [sumFl_snoc]; exact hle
  · rw [sumFl_snoc]; exact (hfl _).1
  · rw [sumFl_snoc, List.sum_append, List.sum_singleton, List.length_append, List.length_singleton]
    have e2 : |sumFl fl d + f - fl (sumFl fl d + f)| ≤ 1 / 2 ^ 54 := by
      rcases le_or_gt (sumFl fl d + f) 1 with hh | hh
      · exact abs_err (hfl _) hs0 hh
      · have := nearest_ge (hfl (sumFl fl d + f)) rep_one hh.le
        rw [le_antisymm hle this, abs_of_pos (by linarith)]
        linarith
    calc |d.sum + f - fl (sumFl fl d + f)| = |(d.sum - sumFl fl d) + (sumFl fl d + f - fl (sumFl fl d + f))| := by congr 1; ring
      _ ≤ |d.sum - sumFl fl d| + |sumFl fl d + f - fl (sumFl fl d + f)| := abs_add_le _ _
      _ ≤ d.length / 2 ^ 54 + 1 / 2 ^ 54 := by linarith [h.err]
      _ = ((d.length + 1 : Nat) : ℚ) / 2 ^ 54 := by push_cast; ring

theorem fl_one {fl : ℚ → ℚ} (hfl : ∀ x, Nearest 53 x (fl x)) : fl 1 = 1 := eq_of_nearest_rep rep_one (hfl 1)

theorem good_next {fl : ℚ → ℚ} (hfl : ∀ x, Nearest 53 x (fl x)) {d : List ℚ} (h : Good fl d) {u : ℚ} (hr : Rep 53 u) (u0 : 0 ≤ u)
    (u1 : u < 1) : Good fl (d ++ [nextFraction fl d u]) := by
  unfold nextFraction
  split
  · rename_i hl
    have hd : d = [] := List.length_eq_zero_iff.1 hl
    subst hd
    have e1 : fl (targetRange.2 - targetRange.1) = 1 := by simp [targetRange, fl_one hfl]
    rw [e1, mul_one]
    have e2 : fl u = u := eq_of_nearest_rep hr (hfl u)
    rw [e2]
    have e3 : u + targetRange.1 = u := by simp [targetRange]
    rw [e3, e2]
    apply good_snoc hfl h u0
    have : sumFl fl [] = 0 := rfl
    rw [this, sub_zero, fl_one hfl]
    exact u1.le
  · have r0 : 0 ≤ 1 - sumFl fl d := by linarith [h.s1]
    have g0 : 0 ≤ fl (1 - sumFl fl d) := nearest_ge (hfl _) (rep_zero _) r0
    apply good_snoc hfl h
    · exact nearest_ge (hfl _) (rep_zero _) (mul_nonneg u0 g0)
    · exact nearest_le (hfl _) (hfl _).1 (by nlinarith)

theorem draw_snoc (fl : ℚ → ℚ) (us : List ℚ) (u : ℚ) :
    drawFractions fl (us ++ [u]) = drawFractions fl us ++ [nextFraction fl (drawFractions fl us) u] := by
  unfold drawFractions
  rw [List.foldl_append]
  rfl

theorem draw_good {fl : ℚ → ℚ} (hfl : ∀ x, Nearest 53 x (fl x)) (us : List ℚ) (hu : ∀ u ∈ us, Rep 53 u ∧ 0 ≤ u ∧ u < 1) :
    Good fl (drawFractions fl us) ∧ (drawFractions fl us).length = us.length := by
  induction us using List.reverseRecOn with
  | nil =>
    refine ⟨⟨by simp [drawFractions], ?_, ?_, ?_, ?_⟩, rfl⟩
    · simp [drawFractions, sumFl]
    · simp [drawFractions, sumFl]
    · simpa [drawFractions, sumFl] using rep_zero 53
    · simp [drawFractions, sumFl]
  | append_singleton us u ih =>
    obtain ⟨g, l⟩ := ih fun v hv => hu v (List.mem_append_left _ hv)
    obtain ⟨a, b, c⟩ := hu u (by simp)
    rw [draw_snoc]
    exact ⟨good_next hfl g a b c, by simp [l]⟩

/-- C155: for all random numbers, the fractions of a mixture (one more than random numbers) are between 0 and 1, and their sum in double
precision, with ties rounded to even, is exactly 1: the assertion of the program never fails, whatever the complexity is. The exact sum is 1
up to a unit of 2^-54 per fraction. -/
theorem c155_fractions {fl : ℚ → ℚ} (hfl : ∀ x, Nearest 53 x (fl x)) (htie : fl (1 - 1 / 2 ^ 54) = 1) (us : List ℚ)
    (hu : ∀ u ∈ us, Rep 53 u ∧ 0 ≤ u ∧ u < 1) :
    ∃ l, fractions fl us = .ok l ∧ l.length = us.length + 1 ∧ (∀ f ∈ l, 0 ≤ f ∧ f ≤ 1) ∧ |l.sum - 1| ≤ (us.length + 1) / 2 ^ 54 := by
  obtain ⟨g, hl⟩ := draw_good hfl us hu
  have r0 : 0 ≤ 1 - sumFl fl (drawFractions fl us) := by linarith [g.s1]
  have r1 : 1 - sumFl fl (drawFractions fl us) ≤ 1 := by linarith [g.s0]
  have e := abs_err (hfl (1 - sumFl fl (drawFractions fl us))) r0 r1
  have g0 : 0 ≤ fl (1 - sumFl fl (drawFractions fl us)) := nearest_ge (hfl _) (rep_zero _) r0
  have gg := good_snoc hfl g g0 le_rfl
  have hone : sumFl fl (drawFractions fl us ++ [fl (1 - sumFl fl (drawFractions fl us))]) = 1 := by
    rw [sumFl_snoc]
    apply round_one (hfl _)
    · intro h; rw [h]; exact htie
    · rw [abs_sub_comm]
      rw [show 1 - (sumFl fl (drawFractions fl us) + fl (1 - sumFl fl (drawFractions fl us))) =
        1 - sumFl fl (drawFractions fl us) - fl (1 - sumFl fl (drawFractions fl us)) by ring]
      exact e
  refine ⟨drawFractions fl us ++ [fl (1 - sumFl fl (drawFractions fl us))], ?_, by simp [hl], gg.mem, ?_⟩
  · unfold fractions
    simp only
    rw [if_pos hone]
  · have := gg.err
    rw [hone] at this
    simpa [hl] using this

/-- C155: the target has the whole mixture if it is the only sample, and otherwise the fraction of the first random number: every fraction
can occur. -/
theorem c155_target {fl : ℚ → ℚ} (hfl : ∀ x, Nearest 53 x (fl x)) (us l : List ℚ) (hu : ∀ u ∈ us, Rep 53 u ∧ 0 ≤ u ∧ u < 1)
    (h : fractions fl us = .ok l) : l.headD 0 = us.headD 1 := by
  have hd : drawFractions fl us ++ [fl (1 - sumFl fl (drawFractions fl us))] = l := by
    unfold fractions at h
    simp only at h
    split at h
    · injection h
    · cases h
  rw [← hd]
  cases us with
  | nil => simp [drawFractions, sumFl, fl_one hfl]
  | cons u t =>
    have hp : ∀ t : List ℚ, (drawFractions fl (u :: t)).head? = some (nextFraction fl [] u) := by
      intro t
      induction t using List.reverseRecOn with
      | nil => rfl
      | append_singleton t v ih =>
        rw [← List.cons_append, draw_snoc, List.head?_append, ih]
        rfl
    have e2 : fl u = u := eq_of_nearest_rep (hu u (by simp)).1 (hfl u)
    have e : nextFraction fl [] u = u := by
      unfold nextFraction
      simp [targetRange, fl_one hfl, e2]
    have := hp t
    cases hq : drawFractions fl (u :: t) with
    | nil => rw [hq] at this; cases this
    | cons a b =>
      rw [hq, e] at this
      simp only [List.head?_cons, Option.some.injEq] at this
      simp [this]

/-- C155: the mixed profile lies within the range of the mixed samples: if the samples are between `lo` and `hi` in a band, the mixture is
between `lo` and `hi` times the sum of the fractions (which is 1 up to rounding). -/
theorem c155_profile (values f : List ℚ) (lo hi : ℚ) (hv : ∀ v ∈ values, lo ≤ v ∧ v ≤ hi) (hf : ∀ x ∈ f, 0 ≤ x) (hl : values.length = f.length) :
    lo * f.sum ≤ profile values f ∧ profile values f ≤ hi * f.sum := by
  unfold profile
  induction f generalizing values with
  | nil => cases values <;> simp
  | cons x t ih =>
    cases values with
    | nil => simp at hl
    | cons v vs =>
      obtain ⟨i1, i2⟩ := ih vs (fun v hv' => hv v (List.mem_cons_of_mem _ hv')) (fun x hx => hf x (List.mem_cons_of_mem _ hx)) (by simpa using hl)
      obtain ⟨a, b⟩ := hv v (by simp)
      have c := hf x (by simp)
      simp only [List.zipWith_cons_cons, List.sum_cons]
      constructor <;> nlinarith

end Verif.Mix
