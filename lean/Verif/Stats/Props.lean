import Mathlib.Algebra.CharZero.Defs
import Mathlib.Algebra.Order.Field.Basic
import Mathlib.Algebra.Order.BigOperators.Group.List
import Mathlib.Data.List.Sort
import Mathlib.Data.List.Dedup
import Mathlib.Tactic.FieldSimp
import Mathlib.Tactic.Ring
import Mathlib.Tactic.Linarith
import Mathlib.Tactic.LinearCombination
import Mathlib.Tactic.Positivity
import Mathlib.Tactic.NormNum
import Verif.Stats.Model
import Verif.Stats.Spec

/-!
# Theorems about the statistics: C36, C37, C51
-/

namespace Verif.Stats

open Spec
open Verif.Str (Out)

section Field

variable {K : Type} [Field K] [CharZero K]

omit [CharZero K] in
theorem sum_dev1 (l : List K) (c : K) :
    (l.map fun x => x - c).sum = l.sum - l.length * c := by
  induction l with
  | nil => simp
  | cons a t ih => simp only [List.map_cons, List.sum_cons, ih, List.length_cons]; push_cast; ring

omit [CharZero K] in
theorem sum_dev2 (l : List K) (c : K) :
    (l.map fun x => (x - c) ^ 2).sum =
      (l.map (· ^ 2)).sum - 2 * c * l.sum + l.length * c ^ 2 := by
  induction l with
  | nil => simp
  | cons a t ih => simp only [List.map_cons, List.sum_cons, ih, List.length_cons]; push_cast; ring

omit [CharZero K] in
theorem sum_dev3 (l : List K) (c : K) :
    (l.map fun x => (x - c) ^ 3).sum =
      (l.map (· ^ 3)).sum - 3 * c * (l.map (· ^ 2)).sum + 3 * c ^ 2 * l.sum - l.length * c ^ 3 := by
  induction l with
  | nil => simp
  | cons a t ih => simp only [List.map_cons, List.sum_cons, ih, List.length_cons]; push_cast; ring

omit [CharZero K] in
theorem sum_dev4 (l : List K) (c : K) :
    (l.map fun x => (x - c) ^ 4).sum =
      (l.map (· ^ 4)).sum - 4 * c * (l.map (· ^ 3)).sum + 6 * c ^ 2 * (l.map (· ^ 2)).sum
        - 4 * c ^ 3 * l.sum + l.length * c ^ 4 := by
  induction l with
  | nil => simp
  | cons a t ih => simp only [List.map_cons, List.sum_cons, ih, List.length_cons]; push_cast; ring

omit [CharZero K] in
theorem sum_codev (l : List (K × K)) (c d : K) :
    (l.map fun p => (p.1 - c) * (p.2 - d)).sum =
      (l.map fun p => p.1 * p.2).sum - c * (l.map Prod.snd).sum - d * (l.map Prod.fst).sum
        + l.length * (c * d) := by
  induction l with
  | nil => simp
  | cons a t ih => simp only [List.map_cons, List.sum_cons, ih, List.length_cons]; push_cast; ring

omit [CharZero K] in
theorem map_snoc {α β : Type} (f : α → β) (l : List α) (x : α) :
    (l ++ [x]).map f = l.map f ++ [f x] := by simp

/-- The sum is the number of samples times the mean. -/
theorem sum_eq_mean (l : List K) (h : l ≠ []) : l.sum = l.length * mean l := by
  have : (l.length : K) ≠ 0 := by
    simpa using h
  unfold mean
  field_simp

theorem mean_snoc (l : List K) (x : K) (h : l ≠ []) :
    mean (l ++ [x]) = mean l + (x - mean l) / ((l.length + 1 : Nat) : K) := by
  have h1 : ((l.length + 1 : Nat) : K) ≠ 0 := Nat.cast_ne_zero.2 (by omega)
  have hs := sum_eq_mean l h
  have e : mean (l ++ [x]) = (l.sum + x) / ((l.length + 1 : Nat) : K) := by
    simp [mean]
  rw [e, hs]
  push_cast at h1 ⊢
  field_simp
  ring

theorem moment2_snoc (l : List K) (x : K) (h : l ≠ []) :
    moment 2 (l ++ [x]) = moment 2 l + (x - mean l) * (x - mean (l ++ [x])) := by
  have h1 : ((l.length + 1 : Nat) : K) ≠ 0 := Nat.cast_ne_zero.2 (by omega)
  have hs := sum_eq_mean l h
  unfold moment
  rw [mean_snoc l x h, sum_dev2, sum_dev2, map_snoc]
  simp only [List.sum_append, List.sum_singleton, List.length_append, List.length_singleton, hs]
  generalize (l.map (· ^ 2)).sum = s2
  generalize mean l = m
  push_cast at h1 ⊢
  field_simp
  ring

theorem moment3_snoc (l : List K) (x : K) (h : l ≠ []) :
    moment 3 (l ++ [x]) = (skewRec x (mean l) (moment 2 l) (moment 3 l) ((l.length + 1 : Nat) : K)).2.2 := by
  have h1 : ((l.length + 1 : Nat) : K) ≠ 0 := Nat.cast_ne_zero.2 (by omega)
  have hs := sum_eq_mean l h
  unfold moment skewRec
  simp only
  rw [mean_snoc l x h, sum_dev3, sum_dev3, sum_dev2, map_snoc, map_snoc]
  simp only [List.sum_append, List.sum_singleton, List.length_append, List.length_singleton, hs]
  generalize (l.map (· ^ 2)).sum = s2
  generalize (l.map (· ^ 3)).sum = s3
  generalize mean l = m
  push_cast at h1 ⊢
  field_simp
  ring

theorem moment4_snoc (l : List K) (x : K) (h : l ≠ []) :
    moment 4 (l ++ [x]) = (kurtRec x (mean l) (moment 2 l) (moment 3 l) (moment 4 l)
      ((l.length + 1 : Nat) : K)).2.2.2 := by
  have h1 : ((l.length + 1 : Nat) : K) ≠ 0 := Nat.cast_ne_zero.2 (by omega)
  have hs := sum_eq_mean l h
  unfold moment kurtRec
  simp only
  rw [mean_snoc l x h, sum_dev4, sum_dev4, sum_dev3, sum_dev2, map_snoc, map_snoc, map_snoc]
  simp only [List.sum_append, List.sum_singleton, List.length_append, List.length_singleton, hs]
  generalize (l.map (· ^ 2)).sum = s2
  generalize (l.map (· ^ 3)).sum = s3
  generalize (l.map (· ^ 4)).sum = s4
  generalize mean l = m
  push_cast at h1 ⊢
  field_simp
  ring

theorem comoment_snoc (l : List (K × K)) (x y : K) (h : l ≠ []) :
    comoment (l ++ [(x, y)]) = comoment l + (((l.length + 1 : Nat) : K) - 1) / ((l.length + 1 : Nat) : K)
      * (x - mean (l.map Prod.fst)) * (y - mean (l.map Prod.snd)) := by
  have h1 : ((l.length + 1 : Nat) : K) ≠ 0 := Nat.cast_ne_zero.2 (by omega)
  have hx := sum_eq_mean (l.map Prod.fst) (by simpa using h)
  have hy := sum_eq_mean (l.map Prod.snd) (by simpa using h)
  unfold comoment
  rw [sum_codev, sum_codev, map_snoc, map_snoc, map_snoc, mean_snoc _ _ (by simpa using h),
    mean_snoc _ _ (by simpa using h)]
  simp only [List.sum_append, List.sum_singleton, List.length_append, List.length_singleton, hx, hy,
    List.length_map]
  generalize (l.map fun p => p.1 * p.2).sum = s
  generalize mean (l.map Prod.fst) = m
  generalize mean (l.map Prod.snd) = m'
  push_cast at h1 ⊢
  field_simp
  ring

/-- One sample. -/
theorem stats_single (x : K) : mean [x] = x ∧ moment 2 [x] = 0 ∧ moment 3 [x] = 0 ∧ moment 4 [x] = 0 := by
  simp [mean, moment]

omit [CharZero K] in
theorem varLoop_snoc (l : List K) (x : K) (s : Nat × K × K) :
    varLoop (l ++ [x]) s = varLoop [x] (varLoop l s) := by
  induction l generalizing s with
  | nil => rfl
  | cons a t ih => obtain ⟨k, m, v⟩ := s; exact ih _

omit [CharZero K] in
theorem covLoop_snoc (l : List (K × K)) (x : K × K) (s) :
    covLoop (l ++ [x]) s = covLoop [x] (covLoop l s) := by
  induction l generalizing s with
  | nil => rfl
  | cons a t ih => obtain ⟨k, m, v, c⟩ := s; obtain ⟨a, b⟩ := a; exact ih _

omit [CharZero K] in
theorem covarLoop_snoc (l : List (K × K)) (x : K × K) (s) :
    covarLoop (l ++ [x]) s = covarLoop [x] (covarLoop l s) := by
  induction l generalizing s with
  | nil => rfl
  | cons a t ih => obtain ⟨k, m⟩ := s; obtain ⟨a, b⟩ := a; exact ih _

omit [CharZero K] in
theorem skewLoop_snoc (l : List K) (x : K) (s) :
    skewLoop (l ++ [x]) s = skewLoop [x] (skewLoop l s) := by
  induction l generalizing s with
  | nil => rfl
  | cons a t ih => obtain ⟨k, m, v, q⟩ := s; exact ih _

omit [CharZero K] in
theorem kurtLoop_snoc (l : List K) (x : K) (s) :
    kurtLoop (l ++ [x]) s = kurtLoop [x] (kurtLoop l s) := by
  induction l generalizing s with
  | nil => rfl
  | cons a t ih => obtain ⟨k, m, v, q, r⟩ := s; exact ih _

/-- C36: the one-pass loop around the variance recurrence yields the number of samples, their mean and
their sum of squared deviations. -/
theorem c36_variance (l : List K) (h : l ≠ []) :
    varLoop l (0, 0, 0) = (l.length, mean l, moment 2 l) := by
  induction l using List.reverseRecOn with
  | nil => exact absurd rfl h
  | append_singleton l x ih =>
    by_cases hl : l = []
    · subst hl
      have := stats_single x
      simp [varLoop, this.1, this.2.1]
    · rw [varLoop_snoc, ih hl]
      have hne : ¬ l.length + 1 = 1 := by
        have := List.length_pos_iff.2 hl; omega
      simp only [varLoop, if_neg hne, varRec, List.length_append, List.length_singleton]
      rw [moment2_snoc l x hl, mean_snoc l x hl]

example : varLoop ([1, 2, 6] : List (ℚ)) (0, 0, 0) = (3, 3, 14) := by norm_num [varLoop, varRec]

/-- C36: the one-pass loop around the covariance recurrence. -/
theorem c36_covariance (l : List (K × K)) (h : l ≠ []) :
    covLoop l (0, 0, 0, 0) = (l.length, mean (l.map Prod.fst), mean (l.map Prod.snd), comoment l) := by
  induction l using List.reverseRecOn with
  | nil => exact absurd rfl h
  | append_singleton l p ih =>
    obtain ⟨x, y⟩ := p
    by_cases hl : l = []
    · subst hl
      simp [covLoop, mean, comoment]
    · rw [covLoop_snoc, ih hl]
      have hne : ¬ l.length + 1 = 1 := by
        have := List.length_pos_iff.2 hl; omega
      simp only [covLoop, if_neg hne, covRec, List.length_append, List.length_singleton]
      rw [comoment_snoc l x y hl, map_snoc, map_snoc, mean_snoc _ _ (by simpa using hl),
        mean_snoc _ _ (by simpa using hl)]
      simp only [List.length_map]

example : covLoop ([(1, 2), (2, 4), (6, 3)] : List (ℚ × ℚ)) (0, 0, 0, 0) = (3, 3, 3, 1) := by
  norm_num [covLoop, covRec]

/-- C36: the one-pass loop that estimates both variances and the covariance. -/
theorem c36_covariance_full (l : List (K × K)) (h : l ≠ []) :
    covarLoop l (0, ⟨0, 0, 0, 0, 0⟩) = (l.length,
      ⟨mean (l.map Prod.fst), mean (l.map Prod.snd), moment 2 (l.map Prod.fst),
        moment 2 (l.map Prod.snd), comoment l⟩) := by
  induction l using List.reverseRecOn with
  | nil => exact absurd rfl h
  | append_singleton l p ih =>
    obtain ⟨x, y⟩ := p
    by_cases hl : l = []
    · subst hl
      simp [covarLoop, mean, comoment, moment]
    · rw [covarLoop_snoc, ih hl]
      have hne : ¬ l.length + 1 = 1 := by
        have := List.length_pos_iff.2 hl; omega
      simp only [covarLoop, if_neg hne, covarRec, List.length_append, List.length_singleton]
      rw [comoment_snoc l x y hl, map_snoc, map_snoc, moment2_snoc _ _ (by simpa using hl),
        moment2_snoc _ _ (by simpa using hl), mean_snoc _ _ (by simpa using hl),
        mean_snoc _ _ (by simpa using hl)]
      simp only [List.length_map]

example : (covarLoop ([(1, 2), (2, 4), (6, 3)] : List (ℚ × ℚ)) (0, ⟨0, 0, 0, 0, 0⟩)).2.vy = 2 := by
  norm_num [covarLoop, covarRec]

/-- C36: the one-pass loop around the skewness recurrence. -/
theorem c36_skewness_sums (l : List K) (h : l ≠ []) :
    skewLoop l (0, 0, 0, 0) = (l.length, mean l, moment 2 l, moment 3 l) := by
  induction l using List.reverseRecOn with
  | nil => exact absurd rfl h
  | append_singleton l x ih =>
    by_cases hl : l = []
    · subst hl
      have := stats_single x
      simp [skewLoop, this.1, this.2.1, this.2.2.1]
    · rw [skewLoop_snoc, ih hl]
      have hne : ¬ l.length + 1 = 1 := by
        have := List.length_pos_iff.2 hl; omega
      have h1 : ((l.length + 1 : Nat) : K) ≠ 0 := Nat.cast_ne_zero.2 (by omega)
      simp only [skewLoop, if_neg hne, List.length_append, List.length_singleton]
      rw [moment3_snoc l x hl, moment2_snoc l x hl, mean_snoc l x hl]
      simp only [skewRec, Prod.mk.injEq, true_and, and_true]
      field_simp
      ring

example : skewLoop ([1, 2, 6] : List (ℚ)) (0, 0, 0, 0) = (3, 3, 14, 18) := by norm_num [skewLoop, skewRec]

/-- C36: the one-pass loop around the kurtosis recurrence. -/
theorem c36_kurtosis_sums (l : List K) (h : l ≠ []) :
    kurtLoop l (0, 0, 0, 0, 0) = (l.length, mean l, moment 2 l, moment 3 l, moment 4 l) := by
  induction l using List.reverseRecOn with
  | nil => exact absurd rfl h
  | append_singleton l x ih =>
    by_cases hl : l = []
    · subst hl
      have := stats_single x
      simp [kurtLoop, this.1, this.2.1, this.2.2.1, this.2.2.2]
    · rw [kurtLoop_snoc, ih hl]
      have hne : ¬ l.length + 1 = 1 := by
        have := List.length_pos_iff.2 hl; omega
      have h1 : ((l.length + 1 : Nat) : K) ≠ 0 := Nat.cast_ne_zero.2 (by omega)
      simp only [kurtLoop, if_neg hne, List.length_append, List.length_singleton]
      rw [moment4_snoc l x hl, moment3_snoc l x hl, moment2_snoc l x hl, mean_snoc l x hl]
      simp only [kurtRec, skewRec, Prod.mk.injEq, true_and, and_true]
      field_simp
      ring

example : kurtLoop ([1, 2, 6] : List (ℚ)) (0, 0, 0, 0, 0) = (3, 3, 14, 18, 98) := by
  norm_num [kurtLoop, kurtRec]

omit [CharZero K] in
theorem moment_perm (p : Nat) {l l' : List K} (h : l.Perm l') : mean l = mean l' ∧ moment p l = moment p l' := by
  have hm : mean l = mean l' := by unfold mean; rw [h.sum_eq, h.length_eq]
  exact ⟨hm, by unfold moment; rw [hm]; exact (h.map _).sum_eq⟩

/-- C36: the order of the samples is irrelevant for all estimates. -/
theorem c36_order {l l' : List K} (hp : l.Perm l') (h : l ≠ []) :
    varLoop l (0, 0, 0) = varLoop l' (0, 0, 0) ∧
    skewLoop l (0, 0, 0, 0) = skewLoop l' (0, 0, 0, 0) ∧
    kurtLoop l (0, 0, 0, 0, 0) = kurtLoop l' (0, 0, 0, 0, 0) := by
  have h' : l' ≠ [] := by
    rintro rfl
    exact h (List.Perm.eq_nil hp)
  rw [c36_variance l h, c36_variance l' h', c36_skewness_sums l h, c36_skewness_sums l' h',
    c36_kurtosis_sums l h, c36_kurtosis_sums l' h', hp.length_eq, (moment_perm 2 hp).1,
    (moment_perm 2 hp).2, (moment_perm 3 hp).2, (moment_perm 4 hp).2]
  simp

example : ([1, 2, 6] : List ℚ).Perm [6, 1, 2] ∧ ([1, 2, 6] : List ℚ) ≠ [] := by decide

omit [CharZero K] in
/-- C36: the first sample needs no special case (polar-hl.c uses the recurrence from the start). -/
theorem c36_first (x : K) : varRec x 0 0 1 = (x, 0) := by simp [varRec]

/-- C36: the reported variance and covariance are the unbiased sample estimates. -/
theorem c36_estimates (l : List (K × K)) (h : l ≠ []) :
    let r := covarLoop l (0, ⟨0, 0, 0, 0, 0⟩)
    variance r.2.vx r.1 = moment 2 (l.map Prod.fst) / ((l.length : K) - 1) ∧
    variance r.2.vy r.1 = moment 2 (l.map Prod.snd) / ((l.length : K) - 1) ∧
    covariance r.2.cv r.1 = comoment l / ((l.length : K) - 1) := by
  rw [c36_covariance_full l h]
  exact ⟨rfl, rfl, rfl⟩

/-- C36: the reported kurtosis is the fourth standardised moment. -/
theorem c36_kurtosis (l : List K) (h : l ≠ []) (hv : moment 2 l ≠ 0) :
    let r := kurtLoop l (0, 0, 0, 0, 0)
    kurtosis r.2.2.1 r.2.2.2.2 r.1 =
      (moment 4 l / l.length) / (moment 2 l / l.length) ^ 2 := by
  have h1 : (l.length : K) ≠ 0 := by simpa using h
  rw [c36_kurtosis_sums l h]
  simp only [kurtosis, variance, add_sub_cancel_right]
  field_simp

example : moment 2 ([1, 2, 6] : List ℚ) ≠ 0 := by norm_num [moment, mean]

end Field

/-- C36: the reported skewness is the third standardised moment. -/
theorem c36_skewness (l : List ℝ) (h : l ≠ []) :
    let r := kurtLoop l (0, 0, 0, 0, 0)
    skewness r.2.2.1 r.2.2.2.1 r.1 =
      (moment 3 l / l.length) / Real.sqrt (moment 2 l / l.length) ^ 3 := by
  rw [c36_kurtosis_sums l h]
  simp only [skewness, standdev, variance, add_sub_cancel_right]
  rw [div_div]

/-! ## Linear regression -/

section Reg

variable {K : Type} [Field K] [LinearOrder K] [IsStrictOrderedRing K]

omit [LinearOrder K] [IsStrictOrderedRing K] in
theorem sse_expand (l : List (K × K)) (a b c d : K) :
    sse l a b = (l.map fun p => (p.2 - d) ^ 2).sum - 2 * b * (l.map fun p => (p.1 - c) * (p.2 - d)).sum
      + b ^ 2 * (l.map fun p => (p.1 - c) ^ 2).sum
      + 2 * (d - a - b * c) * (((l.map Prod.snd).sum - l.length * d) - b * ((l.map Prod.fst).sum - l.length * c))
      + l.length * (d - a - b * c) ^ 2 := by
  unfold sse
  induction l with
  | nil => simp
  | cons p t ih =>
    simp only [List.map_cons, List.sum_cons, ih, List.length_cons]; push_cast; ring

theorem sse_eq (l : List (K × K)) (h : l ≠ []) (a b : K) :
    sse l a b = moment 2 (l.map Prod.snd) - 2 * b * comoment l + b ^ 2 * moment 2 (l.map Prod.fst)
      + l.length * (mean (l.map Prod.snd) - a - b * mean (l.map Prod.fst)) ^ 2 := by
  rw [sse_expand l a b (mean (l.map Prod.fst)) (mean (l.map Prod.snd))]
  have hx := sum_eq_mean (l.map Prod.fst) (by simpa using h)
  have hy := sum_eq_mean (l.map Prod.snd) (by simpa using h)
  rw [List.length_map] at hx hy
  rw [hx, hy]
  have e1 : moment 2 (l.map Prod.snd) = (l.map fun p => (p.2 - mean (l.map Prod.snd)) ^ 2).sum := by
    unfold moment; rw [List.map_map]; rfl
  have e2 : moment 2 (l.map Prod.fst) = (l.map fun p => (p.1 - mean (l.map Prod.fst)) ^ 2).sum := by
    unfold moment; rw [List.map_map]; rfl
  rw [e1, e2]
  unfold comoment
  ring

omit [LinearOrder K] [IsStrictOrderedRing K] in
/-- The coefficients from the loop, the estimates and `linreg_coefs` (trend-hl.c:76-121). -/
theorem coefs_eq [CharZero K] (l : List (K × K)) (h2 : 2 ≤ l.length) (hv : moment 2 (l.map Prod.fst) ≠ 0) :
    let r := covarLoop l (0, ⟨0, 0, 0, 0, 0⟩)
    linregCoefs r.2.mx r.2.my (covariance r.2.cv r.1) (variance r.2.vx r.1) =
      (comoment l / moment 2 (l.map Prod.fst),
       mean (l.map Prod.snd) - comoment l / moment 2 (l.map Prod.fst) * mean (l.map Prod.fst)) := by
  have h : l ≠ [] := by rintro rfl; simp at h2
  have hn : (l.length : K) - 1 ≠ 0 := by
    rw [sub_ne_zero]
    exact_mod_cast (by omega : l.length ≠ 1)
  rw [c36_covariance_full l h]
  simp only [linregCoefs, linregSlope, linregIntercept, covariance, variance]
  have : comoment l / (↑l.length - 1) / (moment 2 (l.map Prod.fst) / (↑l.length - 1)) =
      comoment l / moment 2 (l.map Prod.fst) := by
    field_simp
  rw [this]

/-- C51: the fitted line minimises the sum of squared residuals over all lines. -/
theorem c51_least_squares (l : List (K × K)) (h2 : 2 ≤ l.length) (hv : moment 2 (l.map Prod.fst) ≠ 0)
    (a b : K) :
    let r := covarLoop l (0, ⟨0, 0, 0, 0, 0⟩)
    let c := linregCoefs r.2.mx r.2.my (covariance r.2.cv r.1) (variance r.2.vx r.1)
    sse l c.2 c.1 ≤ sse l a b := by
  have h : l ≠ [] := by rintro rfl; simp at h2
  intro r c
  have hc : c = _ := coefs_eq l h2 hv
  rw [hc]
  simp only
  rw [sse_eq l h, sse_eq l h]
  have hpos : 0 ≤ moment 2 (l.map Prod.fst) := by
    unfold moment
    apply List.sum_nonneg
    intro x hx
    obtain ⟨y, _, rfl⟩ := List.mem_map.1 hx
    positivity
  have hpos' : 0 < moment 2 (l.map Prod.fst) := lt_of_le_of_ne hpos (Ne.symm hv)
  generalize moment 2 (l.map Prod.fst) = vx at *
  generalize moment 2 (l.map Prod.snd) = vy at *
  generalize mean (l.map Prod.fst) = mx at *
  generalize mean (l.map Prod.snd) = my at *
  generalize comoment l = cv at *
  have e1 : vy - 2 * (cv / vx) * cv + (cv / vx) ^ 2 * vx +
      ↑l.length * (my - (my - cv / vx * mx) - cv / vx * mx) ^ 2 = vy - cv ^ 2 / vx := by
    field_simp; ring
  rw [e1]
  have e2 : vy - 2 * b * cv + b ^ 2 * vx = vy - cv ^ 2 / vx + vx * (b - cv / vx) ^ 2 := by
    field_simp; ring
  rw [e2]
  have : 0 ≤ vx * (b - cv / vx) ^ 2 := by positivity
  have : 0 ≤ (l.length : K) * (my - a - b * mx) ^ 2 := by positivity
  linarith

example : 2 ≤ ([(1, 2), (2, 4), (6, 3)] : List (ℚ × ℚ)).length ∧
    moment 2 (([(1, 2), (2, 4), (6, 3)] : List (ℚ × ℚ)).map Prod.fst) ≠ 0 := by
  norm_num [moment, mean]

/-- C51: R² is the explained share of the variation of y, and lies between 0 and 1. -/
theorem c51_rsquared (l : List (K × K)) (h2 : 2 ≤ l.length) (hv : moment 2 (l.map Prod.fst) ≠ 0)
    (hy : moment 2 (l.map Prod.snd) ≠ 0) :
    let r := covarLoop l (0, ⟨0, 0, 0, 0, 0⟩)
    let c := linregCoefs r.2.mx r.2.my (covariance r.2.cv r.1) (variance r.2.vx r.1)
    let rsq := linregRsquared (covariance r.2.cv r.1) (variance r.2.vx r.1) (variance r.2.vy r.1)
    rsq = 1 - sse l c.2 c.1 / moment 2 (l.map Prod.snd) ∧ 0 ≤ rsq ∧ rsq ≤ 1 := by
  have h : l ≠ [] := by rintro rfl; simp at h2
  intro r c rsq
  have hn : (l.length : K) - 1 ≠ 0 := by
    rw [sub_ne_zero]
    exact_mod_cast (by omega : l.length ≠ 1)
  have hr : rsq = comoment l ^ 2 / (moment 2 (l.map Prod.fst) * moment 2 (l.map Prod.snd)) := by
    simp only [rsq, r, c36_covariance_full l h, linregRsquared, covariance, variance]
    field_simp
  have hc : c = _ := coefs_eq l h2 hv
  have hnn : ∀ (q : List K), 0 ≤ moment 2 q := by
    intro q
    unfold moment
    apply List.sum_nonneg
    intro x hx
    obtain ⟨y, _, rfl⟩ := List.mem_map.1 hx
    positivity
  have hsse : 0 ≤ sse l c.2 c.1 := by
    unfold sse
    apply List.sum_nonneg
    intro x hx
    obtain ⟨y, _, rfl⟩ := List.mem_map.1 hx
    positivity
  have heq : rsq = 1 - sse l c.2 c.1 / moment 2 (l.map Prod.snd) := by
    rw [hr, hc, sse_eq l h]
    field_simp
    ring
  refine ⟨heq, ?_, ?_⟩
  · rw [hr]
    exact div_nonneg (by positivity) (mul_nonneg (hnn _) (hnn _))
  · rw [heq]
    have := div_nonneg hsse (hnn (l.map Prod.snd))
    linarith

example : moment 2 (([(1, 2), (2, 4), (6, 3)] : List (ℚ × ℚ)).map Prod.snd) ≠ 0 := by
  norm_num [moment, mean]

/-- C51: the residuals of the fitted line add up to zero. -/
theorem c51_residuals (l : List (K × K)) (h2 : 2 ≤ l.length) (hv : moment 2 (l.map Prod.fst) ≠ 0) :
    let r := covarLoop l (0, ⟨0, 0, 0, 0, 0⟩)
    let c := linregCoefs r.2.mx r.2.my (covariance r.2.cv r.1) (variance r.2.vx r.1)
    (l.map fun p => p.2 - linregPredict p.1 c.1 c.2).sum = 0 := by
  have h : l ≠ [] := by rintro rfl; simp at h2
  intro r c
  have hc : c = _ := coefs_eq l h2 hv
  have e : ∀ (q : List (K × K)) (s t : K), (q.map fun p => p.2 - linregPredict p.1 s t).sum =
      (q.map Prod.snd).sum - q.length * t - s * (q.map Prod.fst).sum := by
    intro q s t
    induction q with
    | nil => simp
    | cons p u ih =>
      rw [List.map_cons, List.sum_cons, ih]
      simp only [List.map_cons, List.sum_cons, List.length_cons, linregPredict]; push_cast; ring
  have hx := sum_eq_mean (l.map Prod.fst) (by simpa using h)
  have hy := sum_eq_mean (l.map Prod.snd) (by simpa using h)
  rw [List.length_map] at hx hy
  rw [e, hc, hx, hy]
  simp only
  ring

end Reg

/-! ## Mode, unique values, histogram -/

/-- No difference of two samples overflows a C `int`. -/
def NoOverflow (l : List Int) : Prop := ∀ a ∈ l, ∀ b ∈ l, a - b ≤ 2147483647

theorem qsortInt_ok (l : List Int) (h : NoOverflow l) :
    ∃ s, qsortInt l = .ok s ∧ s.Perm l ∧ s.Pairwise (· ≤ ·) := by
  refine ⟨l.insertionSort (· ≤ ·), ?_, List.perm_insertionSort _ _, List.pairwise_insertionSort _ _⟩
  unfold qsortInt
  apply if_neg
  simp only [List.any_eq_true, not_exists, not_and]
  intro a ha b hb
  have h1 := h a ha b hb
  have h2 := h b hb a ha
  rw [comp, if_neg (by omega)]
  simp

/-- Sorted lists: an element that differs from the last one is new. -/
theorem sorted_new {pre : List Int} {x prev : Int} (hs : (pre ++ [prev] ++ [x]).Pairwise (· ≤ ·))
    (hx : x ≠ prev) : x ∉ pre ++ [prev] := by
  rw [List.pairwise_append] at hs
  have h1 := hs.1
  rw [List.pairwise_append] at h1
  intro hmem
  have hp : prev ≤ x := hs.2.2 prev (by simp) x (by simp)
  rcases List.mem_append.1 hmem with h | h
  · have := h1.2.2 x h prev (by simp)
    omega
  · simp at h; omega

theorem modeLoop_inv (xs pre : List Int) (prev : Int) (now max : Nat) (mod : Int)
    (hs : (pre ++ [prev] ++ xs).Pairwise (· ≤ ·))
    (hnow : now = (pre ++ [prev]).count prev)
    (hother : ∀ v, v ≠ prev → (pre ++ [prev]).count v ≤ max)
    (hmax : max ≤ (pre ++ [prev] ++ xs).count mod) :
    let r := modeLoop xs prev now max mod
    let full := pre ++ [prev] ++ xs
    r.2.1 = full.count r.1 ∧ (∀ v, v ≠ r.1 → full.count v ≤ r.2.2.1) ∧
      r.2.2.1 ≤ full.count r.2.2.2 := by
  induction xs generalizing pre prev now max mod with
  | nil => simpa [modeLoop] using ⟨by simpa using hnow, by simpa using hother, by simpa using hmax⟩
  | cons x xs ih =>
    have e : pre ++ [prev] ++ x :: xs = (pre ++ [prev]) ++ [x] ++ xs := by simp
    rw [e] at hs hmax ⊢
    rw [modeLoop]
    have hs' : (pre ++ [prev] ++ [x]).Pairwise (· ≤ ·) := (List.pairwise_append.1 hs).1
    by_cases hx : x = prev
    · subst hx
      rw [if_pos rfl]
      refine ih (pre ++ [x]) x (now + 1) max mod hs ?_ ?_ hmax
      · rw [hnow, List.count_append (l₂ := [x])]
        simp
      · intro v hv
        rw [List.count_append]
        have : [x].count v = 0 := by simp [List.count_eq_zero, hv]
        have := hother v hv
        omega
    · have hnew := sorted_new hs' hx
      have h1 : 1 = (pre ++ [prev] ++ [x]).count x := by
        rw [List.count_append, List.count_eq_zero_of_not_mem hnew]; simp
      rw [if_neg hx]
      by_cases hn : now > max
      · rw [if_pos hn]
        refine ih (pre ++ [prev]) x 1 now prev hs h1 ?_ ?_
        · intro v hv
          rw [List.count_append]
          have h0 : [x].count v = 0 := by simp [List.count_eq_zero, hv]
          by_cases hvp : v = prev
          · subst hvp; omega
          · have := hother v hvp; omega
        · rw [List.count_append, List.count_append]; omega
      · rw [if_neg hn]
        refine ih (pre ++ [prev]) x 1 max mod hs h1 ?_ hmax
        intro v hv
        rw [List.count_append]
        have h0 : [x].count v = 0 := by simp [List.count_eq_zero, hv]
        by_cases hvp : v = prev
        · subst hvp; omega
        · have := hother v hvp; omega

/-- C37 (partial): the mode is a sample value of maximal frequency. Missing: samples with differences
beyond the range of `int`, see `c37_overflow_violated`. -/
theorem c37_mode_partial (l : List Int) (h : l ≠ []) (ho : NoOverflow l) :
    ∃ m, mode l = .ok m ∧ m ∈ l ∧ ∀ v, l.count v ≤ l.count m := by
  obtain ⟨x0, t, rfl⟩ := List.exists_cons_of_ne_nil h
  obtain ⟨s, hs, hp, hsort⟩ := qsortInt_ok _ ho
  unfold mode
  simp only [hs, Out.bind]
  cases s with
  | nil => exact absurd hp.symm.eq_nil (by simp)
  | cons a as =>
    simp only
    have hc : ∀ v, (a :: as).count v = (x0 :: t).count v := fun v => hp.count_eq v
    have inv := modeLoop_inv as [] a 1 1 x0 (by simpa using hsort) (by simp)
      (by intro v hv; simp [List.count_eq_zero_of_not_mem, hv])
      (by
        have : ([] ++ [a] ++ as).count x0 = (x0 :: t).count x0 := by simpa using hc x0
        rw [this]
        have := List.count_pos_iff.2 (List.mem_cons_self : x0 ∈ x0 :: t)
        omega)
    simp only [List.nil_append, List.singleton_append, hc] at inv
    obtain ⟨i1, i2, i3⟩ := inv
    generalize modeLoop as a 1 1 x0 = r at *
    obtain ⟨prev, now, max, mod⟩ := r
    simp only at *
    have hx0 := List.count_pos_iff.2 (List.mem_cons_self : x0 ∈ x0 :: t)
    have key : ∀ m, (∀ v, (x0 :: t).count v ≤ (x0 :: t).count m) →
        m ∈ x0 :: t ∧ ∀ v, (x0 :: t).count v ≤ (x0 :: t).count m := fun m hm =>
      ⟨List.count_pos_iff.1 (by have := hm x0; omega), hm⟩
    split
    · refine ⟨prev, rfl, key _ fun v => ?_⟩
      by_cases hv : v = prev
      · subst hv; exact le_rfl
      · have := i2 v hv; omega
    · refine ⟨mod, rfl, key _ fun v => ?_⟩
      by_cases hv : v = prev
      · subst hv; omega
      · have := i2 v hv; omega

example : NoOverflow [3, 1, 3, 2] ∧ mode [3, 1, 3, 2] = .ok 3 := by
  refine ⟨?_, by decide +kernel⟩
  intro a ha b hb
  simp only [List.mem_cons, List.not_mem_nil, or_false] at ha hb
  omega

theorem uniqLoop_eq (xs pre : List Int) (prev : Int) (num : Nat)
    (hs : (pre ++ [prev] ++ xs).Pairwise (· ≤ ·)) (hn : num = (pre ++ [prev]).dedup.length) :
    uniqLoop xs prev num = (pre ++ [prev] ++ xs).dedup.length := by
  induction xs generalizing pre prev num with
  | nil => simpa [uniqLoop] using hn
  | cons x xs ih =>
    have e : pre ++ [prev] ++ x :: xs = (pre ++ [prev]) ++ [x] ++ xs := by simp
    rw [e] at hs ⊢
    rw [uniqLoop]
    have hs' : (pre ++ [prev] ++ [x]).Pairwise (· ≤ ·) := (List.pairwise_append.1 hs).1
    have hperm : (pre ++ [prev] ++ [x]).dedup.length = (x :: (pre ++ [prev])).dedup.length :=
      (List.perm_append_singleton x (pre ++ [prev])).dedup.length_eq
    apply ih (pre ++ [prev]) x _ hs
    rw [hperm]
    by_cases hx : x = prev
    · rw [if_neg (by simpa using hx), List.dedup_cons_of_mem (by simp [hx]), hn]
    · rw [if_pos hx, List.dedup_cons_of_notMem (sorted_new hs' hx), List.length_cons, hn]

/-- C37 (partial): the number of unique values is the number of distinct samples. -/
theorem c37_unique_partial (l : List Int) (h : l ≠ []) (ho : NoOverflow l) :
    nUniq l = .ok l.dedup.length := by
  obtain ⟨s, hs, hp, hsort⟩ := qsortInt_ok _ ho
  unfold nUniq
  simp only [hs, Out.bind]
  cases s with
  | nil => exact absurd hp.symm.eq_nil h
  | cons a as =>
    simp only
    rw [uniqLoop_eq as [] a 1 (by simpa using hsort) (by simp)]
    rw [← hp.dedup.length_eq]
    simp

example : nUniq [3, 1, 3, 2] = .ok 3 := by decide +kernel

/-- What the histogram has recorded: `k+1` values, strictly increasing, each with its count, and
zeros behind them. -/
structure HistInv (pre : List Int) (prev : Int) (k num : Nat) (h0 : List Int) (h1 : List Nat) : Prop where
  vals : (h0.take (k + 1)).Pairwise (· < ·)
  last : h0[k]? = some prev
  mem : ∀ v, v ∈ h0.take (k + 1) ↔ v ∈ pre
  cnt : h1.take (k + 1) = (h0.take (k + 1)).map (fun v => pre.count v)
  zero : h1.drop (k + 1) = List.replicate (num - (k + 1)) 0
  len0 : h0.length = num
  len1 : h1.length = num

theorem uniqLoop_le (xs : List Int) (prev : Int) (num : Nat) : num ≤ uniqLoop xs prev num := by
  induction xs generalizing prev num with
  | nil => exact le_rfl
  | cons x xs ih =>
    rw [uniqLoop]
    have := ih x (if x ≠ prev then num + 1 else num)
    split at this <;> split <;> omega

theorem histLoop_inv (xs pre : List Int) (prev : Int) (k num : Nat) (h0 : List Int) (h1 : List Nat)
    (hs : (pre ++ [prev] ++ xs).Pairwise (· ≤ ·))
    (hu : uniqLoop xs prev (k + 1) = num)
    (hi : HistInv (pre ++ [prev]) prev k num h0 h1) :
    ∃ h0' h1' k' prev', histLoop xs prev k h0 h1 = .ok (h0', h1') ∧
      HistInv (pre ++ [prev] ++ xs) prev' k' num h0' h1' ∧ k' + 1 = num := by
  induction xs generalizing pre prev k h0 h1 with
  | nil => exact ⟨h0, h1, k, prev, rfl, by simpa using hi, by simpa [uniqLoop] using hu⟩
  | cons x xs ih =>
    have e : pre ++ [prev] ++ x :: xs = (pre ++ [prev]) ++ [x] ++ xs := by simp
    rw [e] at hs ⊢
    rw [uniqLoop] at hu
    have hs' : (pre ++ [prev] ++ [x]).Pairwise (· ≤ ·) := (List.pairwise_append.1 hs).1
    rw [histLoop]
    by_cases hx : x = prev
    · subst hx
      rw [if_neg (by simp)] at hu ⊢
      have hk : k < h1.length := by
        have := uniqLoop_le xs x (k + 1)
        have := hi.len1; omega
      rw [incAt, if_pos hk]
      simp only [Out.bind]
      apply ih (pre ++ [x]) x k h0 _ hs hu
      refine ⟨hi.vals, hi.last, ?_, ?_, ?_, hi.len0, ?_⟩
      · intro v; rw [hi.mem]; simp
      · have hc := hi.cnt
        apply List.ext_getElem?
        intro i
        have hci := congrArg (fun l => l[i]?) hc
        simp only [List.getElem?_take, List.getElem?_map, List.getElem?_modify] at hci ⊢
        by_cases hik : i < k + 1
        · simp only [if_pos hik] at hci ⊢
          rw [hci]
          have hil : i < h0.length := by have := hi.len0; have := hi.len1; omega
          rw [List.getElem?_eq_getElem hil]
          simp only [Option.map_some, Option.map_if]
          have hiff : k = i ↔ h0[i] = x := by
            constructor
            · rintro rfl
              have := hi.last
              rw [List.getElem?_eq_getElem hil] at this
              exact Option.some.inj this
            · intro he
              by_contra hne
              have hlt : i < k := by omega
              have hv := hi.vals
              rw [List.pairwise_iff_getElem] at hv
              have hk0 : k < h0.length := by have := hi.len0; have := hi.len1; omega
              have := hv i k (by simp; omega) (by simp; omega) hlt
              simp only [List.getElem_take] at this
              have hl := hi.last
              rw [List.getElem?_eq_getElem hk0] at hl
              have := Option.some.inj hl
              omega
          rw [List.count_append (l₂ := [x])]
          by_cases hki : k = i
          · have := hiff.1 hki
            simp [hki, this]
          · have hne : ¬ h0[i] = x := fun h => hki (hiff.2 h)
            have hz : [x].count h0[i] = 0 := by simp [List.count_eq_zero, hne]
            have e2 : (pre ++ [x] ++ [x]).count h0[i] = pre.count h0[i] := by
              rw [List.count_append, List.count_append, hz]; rfl
            rw [hz, e2]
            simp [hki]
        · simp only [if_neg hik]
          rfl
      · rw [← hi.zero]
        rw [List.drop_modify_of_lt _ _ _ _ (by omega)]
      · rw [List.length_modify]; exact hi.len1
    · rw [if_pos hx] at hu ⊢
      have hle := uniqLoop_le xs x (k + 1 + 1)
      have hk0 : k + 1 < h0.length := by have := hi.len0; omega
      have hk1 : k + 1 < h1.length := by have := hi.len1; omega
      rw [setAt, if_pos hk0, incAt, if_pos hk1]
      simp only [Out.bind]
      have hnew := sorted_new hs' hx
      apply ih (pre ++ [prev]) x (k + 1) _ _ hs hu
      have htake : (h0.set (k + 1) x).take (k + 1 + 1) = h0.take (k + 1) ++ [x] := by
        rw [List.take_succ_eq_append_getElem (by rw [List.length_set]; exact hk0)]
        rw [List.take_set_of_le (le_refl _)]
        simp
      have hz : h1[k + 1]? = some 0 := by
        have := congrArg (fun l => l[0]?) hi.zero
        simp only [List.getElem?_drop, Nat.add_zero] at this
        rw [this, List.getElem?_replicate_of_lt]
        have := hi.len1; omega
      refine ⟨?_, ?_, ?_, ?_, ?_, ?_, ?_⟩
      · rw [htake, List.pairwise_append]
        refine ⟨hi.vals, by simp, ?_⟩
        intro a ha b hb
        simp only [List.mem_singleton] at hb
        subst hb
        have ham := (hi.mem a).1 ha
        have : a ≤ b := (List.pairwise_append.1 hs').2.2 a ham b (by simp)
        have : a ≠ b := fun h => hnew (h ▸ ham)
        omega
      · rw [List.getElem?_set_self hk0]
      · intro v
        rw [htake, List.mem_append, hi.mem, List.mem_append (t := [x])]
      · rw [htake, List.map_append, List.take_succ_eq_append_getElem (by rw [List.length_modify]; exact hk1)]
        rw [List.getElem_modify_eq, List.map_singleton]
        congr 1
        · rw [List.take_modify, List.modify_eq_self (by simp), hi.cnt]
          apply List.map_congr_left
          intro v hv
          have hvm := (hi.mem v).1 hv
          have : [x].count v = 0 := by
            rw [List.count_eq_zero]
            intro h
            simp only [List.mem_singleton] at h
            exact hnew (h ▸ hvm)
          rw [List.count_append (l₂ := [x]), this, Nat.add_zero]
        · rw [List.getElem?_eq_getElem hk1] at hz
          rw [Option.some.inj hz, List.count_append, List.count_eq_zero_of_not_mem hnew]
          simp
      · rw [List.drop_modify_of_lt _ _ _ _ (by omega)]
        have := congrArg (List.drop 1) hi.zero
        rw [List.drop_drop, List.drop_replicate] at this
        rw [this]
        congr 1
      · rw [List.length_set]; exact hi.len0
      · rw [List.length_modify]; exact hi.len1

/-- C37 (partial): the histogram lists every distinct value once, in increasing order, with its number
of occurrences; all accesses are inside of the arrays. -/
theorem c37_histogram_partial (l : List Int) (h : l ≠ []) (ho : NoOverflow l) :
    ∃ vals counts, histogram l = .ok ((vals, counts), vals.length) ∧ vals.Pairwise (· < ·) ∧
      (∀ v, v ∈ vals ↔ v ∈ l) ∧ counts = vals.map (fun v => l.count v) := by
  obtain ⟨s, hs, hp, hsort⟩ := qsortInt_ok _ ho
  unfold histogram
  simp only [hs, Out.bind]
  cases s with
  | nil => exact absurd hp.symm.eq_nil h
  | cons a as =>
    simp only
    have hpos := uniqLoop_le as a 1
    rw [setAt, if_pos (by rw [List.length_replicate]; omega), incAt,
      if_pos (by rw [List.length_replicate]; omega)]
    simp only
    obtain ⟨n, hn⟩ : ∃ n, uniqLoop as a 1 = n + 1 := ⟨uniqLoop as a 1 - 1, by omega⟩
    rw [hn]
    obtain ⟨h0', h1', k', prev', hr, hi, hk⟩ := histLoop_inv as [] a 0 (n + 1)
      ((List.replicate (n + 1) 0).set 0 a) ((List.replicate (n + 1) 0).modify 0 (· + 1))
      (by simpa using hsort) hn (by
        refine ⟨?_, ?_, ?_, ?_, ?_, ?_, ?_⟩
        all_goals simp [List.replicate_succ])
    rw [hr]
    simp only
    have ht0 : h0'.take (k' + 1) = h0' := List.take_of_length_le (by rw [hi.len0, hk])
    have ht1 : h1'.take (k' + 1) = h1' := List.take_of_length_le (by rw [hi.len1, hk])
    refine ⟨h0', h1', by rw [hi.len0], ht0 ▸ hi.vals, ?_, ?_⟩
    · intro v
      have := hi.mem v
      rw [ht0] at this
      rw [this]
      simpa using hp.mem_iff
    · have := hi.cnt
      rw [ht0, ht1] at this
      rw [this]
      apply List.map_congr_left
      intro v _
      simpa using hp.count_eq v

example : histogram [3, 1, 3, 2] = .ok (([1, 2, 3], [1, 1, 2]), 3) := by decide +kernel

/-- C37 does not hold for samples with two values more than `INT_MAX` apart: the comparison overflows. -/
theorem c37_overflow_violated (l : List Int) (a b : Int) (ha : a ∈ l) (hb : b ∈ l)
    (hab : a - b > 2147483647) : mode l = .ub ∧ nUniq l = .ub ∧ histogram l = .ub := by
  have hq : qsortInt l = .ub := by
    unfold qsortInt
    apply if_pos
    rw [List.any_eq_true]
    refine ⟨a, ha, ?_⟩
    rw [List.any_eq_true]
    refine ⟨b, hb, ?_⟩
    rw [comp, if_pos (by omega)]
    rfl
  obtain ⟨x, t, rfl⟩ := List.exists_cons_of_ne_nil (List.ne_nil_of_mem ha)
  refine ⟨?_, ?_, ?_⟩
  · unfold mode; simp only [hq, Out.bind]
  · unfold nUniq; simp only [hq, Out.bind]
  · unfold histogram; simp only [hq, Out.bind]

example : mode [2147483647, -1] = .ub :=
  (c37_overflow_violated _ 2147483647 (-1) (by simp) (by simp) (by omega)).1

end Verif.Stats
