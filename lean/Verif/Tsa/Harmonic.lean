import Mathlib.Tactic.Linarith
import Mathlib.Tactic.Ring
import Mathlib.Tactic.IntervalCases
import Verif.Tsa.Spec

/-!
# Theorems about the harmonic interpolation: C206
-/

namespace Verif.Tsa

open Spec
open Verif.Str (Out)

theorem usable_iff (h : Harm) (nodata : Int) (o : Int × Int) :
    usable h nodata o = true ↔ Usable nodata h.fitMin h.fitMax o := by
  simp only [usable, Usable, Bool.not_eq_true', Bool.or_eq_false_iff, decide_eq_false_iff_not]
  constructor
  · rintro ⟨⟨a, b⟩, c⟩; exact ⟨a, by omega, by omega⟩
  · rintro ⟨a, b, c⟩; exact ⟨⟨a, by omega⟩, by omega⟩

theorem fitted_eq (h : Harm) (nodata : Int) (series : List (Int × Int)) :
    fitted h nodata series = series.filter fun o => decide (Usable nodata h.fitMin h.fitMax o) := by
  unfold fitted
  refine List.filter_congr fun o _ => ?_
  rw [Bool.eq_iff_iff, usable_iff]; simp

/-- Every list of coefficients is a harmonic function. -/
theorem row_curve (h : Harm) (h1 : 1 ≤ h.modes) (h3 : h.modes ≤ 3) (c : List ℝ)
    (hc : c.length = 1 + (if h.trend then 1 else 0) + 2 * h.modes) :
    ∃ a b waves, waves.length = h.modes ∧ (h.trend = false → b = 0) ∧ ∀ d : Int, dot (row h d) c = curve a b waves d := by
  obtain ⟨tr, m, lo, hi, on⟩ := h
  simp only at h1 h3 hc ⊢
  have e2 : ∀ x : ℝ, 2 * Real.pi / 365 * x = 2 * Real.pi * (0 + 1) * x / 365 := fun x => by ring
  have e4 : ∀ x : ℝ, 4 * Real.pi / 365 * x = 2 * Real.pi * (1 + 1) * x / 365 := fun x => by ring
  have e6 : ∀ x : ℝ, 6 * Real.pi / 365 * x = 2 * Real.pi * (2 + 1) * x / 365 := fun x => by ring
  interval_cases m <;> cases tr
  · obtain ⟨c0, c1, c2, rfl⟩ : ∃ c0 c1 c2, c = [c0, c1, c2] := by
      simpa [List.length_eq_three] using hc
    refine ⟨c0, 0, [(c1, c2)], rfl, fun _ => rfl, fun d => ?_⟩
    simp [dot, row, wave, curve, List.zipIdx, e2]
    ring
  · obtain ⟨c0, b, c1, c2, rfl⟩ : ∃ c0 b c1 c2, c = [c0, b, c1, c2] := by
      rcases c with _ | ⟨c0, _ | ⟨b, _ | ⟨c1, _ | ⟨c2, _ | ⟨x, c⟩⟩⟩⟩⟩ <;> simp at hc
      exact ⟨_, _, _, _, rfl⟩
    refine ⟨c0, b, [(c1, c2)], rfl, (fun h => by cases h), fun d => ?_⟩
    simp [dot, row, wave, curve, List.zipIdx, e2]
    ring
  · obtain ⟨c0, c1, c2, c3, c4, rfl⟩ : ∃ c0 c1 c2 c3 c4, c = [c0, c1, c2, c3, c4] := by
      rcases c with _ | ⟨c0, _ | ⟨c1, _ | ⟨c2, _ | ⟨c3, _ | ⟨c4, _ | ⟨x, c⟩⟩⟩⟩⟩⟩ <;> simp at hc
      exact ⟨_, _, _, _, _, rfl⟩
    refine ⟨c0, 0, [(c1, c2), (c3, c4)], rfl, fun _ => rfl, fun d => ?_⟩
    simp [dot, row, wave, curve, List.zipIdx, e2, e4]
    ring
  · obtain ⟨c0, b, c1, c2, c3, c4, rfl⟩ : ∃ c0 b c1 c2 c3 c4, c = [c0, b, c1, c2, c3, c4] := by
      rcases c with _ | ⟨c0, _ | ⟨b, _ | ⟨c1, _ | ⟨c2, _ | ⟨c3, _ | ⟨c4, _ | ⟨x, c⟩⟩⟩⟩⟩⟩⟩ <;> simp at hc
      exact ⟨_, _, _, _, _, _, rfl⟩
    refine ⟨c0, b, [(c1, c2), (c3, c4)], rfl, (fun h => by cases h), fun d => ?_⟩
    simp [dot, row, wave, curve, List.zipIdx, e2, e4]
    ring
  · obtain ⟨c0, c1, c2, c3, c4, c5, c6, rfl⟩ : ∃ c0 c1 c2 c3 c4 c5 c6, c = [c0, c1, c2, c3, c4, c5, c6] := by
      rcases c with _ | ⟨c0, _ | ⟨c1, _ | ⟨c2, _ | ⟨c3, _ | ⟨c4, _ | ⟨c5, _ | ⟨c6, _ | ⟨x, c⟩⟩⟩⟩⟩⟩⟩⟩ <;> simp at hc
      exact ⟨_, _, _, _, _, _, _, rfl⟩
    refine ⟨c0, 0, [(c1, c2), (c3, c4), (c5, c6)], rfl, fun _ => rfl, fun d => ?_⟩
    simp [dot, row, wave, curve, List.zipIdx, e2, e4, e6]
    ring
  · obtain ⟨c0, b, c1, c2, c3, c4, c5, c6, rfl⟩ : ∃ c0 b c1 c2 c3 c4 c5 c6, c = [c0, b, c1, c2, c3, c4, c5, c6] := by
      rcases c with _ | ⟨c0, _ | ⟨b, _ | ⟨c1, _ | ⟨c2, _ | ⟨c3, _ | ⟨c4, _ | ⟨c5, _ | ⟨c6, _ | ⟨x, c⟩⟩⟩⟩⟩⟩⟩⟩⟩ <;> simp at hc
      exact ⟨_, _, _, _, _, _, _, _, rfl⟩
    refine ⟨c0, b, [(c1, c2), (c3, c4), (c5, c6)], rfl, (fun h => by cases h), fun d => ?_⟩
    simp [dot, row, wave, curve, List.zipIdx, e2, e4, e6]
    ring

/-- The coefficients in the order of the row. -/
def flatC (trend : Bool) (a b : ℝ) (waves : List (ℝ × ℝ)) : List ℝ :=
  [a] ++ (if trend then [b] else []) ++ waves.flatMap fun w => [w.1, w.2]

/-- Every harmonic function is a list of coefficients. -/
theorem curve_row (h : Harm) (h1 : 1 ≤ h.modes) (h3 : h.modes ≤ 3) (a b : ℝ) (waves : List (ℝ × ℝ))
    (hw : waves.length = h.modes) (hb : h.trend = false → b = 0) :
    (flatC h.trend a b waves).length = 1 + (if h.trend then 1 else 0) + 2 * h.modes ∧
      ∀ d : Int, dot (row h d) (flatC h.trend a b waves) = curve a b waves d := by
  obtain ⟨tr, m, lo, hi, on⟩ := h
  simp only at h1 h3 hw hb ⊢
  have e2 : ∀ x : ℝ, 2 * Real.pi / 365 * x = 2 * Real.pi * (0 + 1) * x / 365 := fun x => by ring
  have e4 : ∀ x : ℝ, 4 * Real.pi / 365 * x = 2 * Real.pi * (1 + 1) * x / 365 := fun x => by ring
  have e6 : ∀ x : ℝ, 6 * Real.pi / 365 * x = 2 * Real.pi * (2 + 1) * x / 365 := fun x => by ring
  have key : ∀ d : Int, dot (row ⟨tr, m, lo, hi, on⟩ d) (flatC tr a b waves) = curve a b waves d := by
    intro d
    rcases waves with _ | ⟨⟨x1, y1⟩, _ | ⟨⟨x2, y2⟩, _ | ⟨⟨x3, y3⟩, _ | ⟨w, ws⟩⟩⟩⟩ <;> simp at hw
    · omega
    all_goals try omega
    all_goals subst hw
    all_goals cases tr
    all_goals try (have hb' := hb rfl; subst hb')
    all_goals simp [dot, row, wave, curve, List.zipIdx, e2, e4, e6, flatC]
    all_goals ring
  refine ⟨?_, key⟩
  have : ∀ l : List (ℝ × ℝ), (l.flatMap fun w => [w.1, w.2]).length = 2 * l.length := by
    intro l; induction l with
    | nil => rfl
    | cons a l ih => simp only [List.flatMap_cons, List.length_append, ih, List.length_cons, List.length_nil]; omega
  cases tr <;> simp [flatC, this, hw] <;> omega

/-- The differences between the values and what coefficients predict, as seen by the regression. -/
noncomputable def misfit (X : List (List ℝ)) (y c : List ℝ) : List ℝ :=
  List.zipWith (fun r v => v - dot r c) X y

/-- C206: for every pixel that is processed, every series, trend and one to three modes, and for a
regression that minimises any measure `loss` of the residuals: if there are at least as many valid
observations in the fitting period as coefficients, there is a harmonic function that fits the valid
observations of the fitting period (and no others) better than any other harmonic function of that
form; each interpolated value is this function at its day, and each near-real-time value is the
difference between observation and function, or nodata without a valid observation. -/
theorem c206_fit (fit : List (List ℝ) → List ℝ → List ℝ) (loss : List ℝ → ℝ) (h : Harm) (nodata : Int)
    (series : List (Int × Int)) (dates : List Int) (h1 : 1 ≤ h.modes) (h3 : h.modes ≤ 3)
    (hlen : ∀ X y, (fit X y).length = 1 + (if h.trend then 1 else 0) + 2 * h.modes)
    (hmin : ∀ X y c, c.length = 1 + (if h.trend then 1 else 0) + 2 * h.modes →
      loss (misfit X y (fit X y)) ≤ loss (misfit X y c))
    (hn : 1 + (if h.trend then 1 else 0) + 2 * h.modes ≤
      (series.filter fun o => decide (Usable nodata h.fitMin h.fitMax o)).length) :
    ∃ a b waves, waves.length = h.modes ∧ (h.trend = false → b = 0) ∧
      (∀ a' b' waves', waves'.length = h.modes → (h.trend = false → b' = 0) →
        loss ((series.filter fun o => decide (Usable nodata h.fitMin h.fitMax o)).map fun o => (o.2 : ℝ) - curve a b waves o.1) ≤
        loss ((series.filter fun o => decide (Usable nodata h.fitMin h.fitMax o)).map fun o => (o.2 : ℝ) - curve a' b' waves' o.1)) ∧
      (harmonic fit h nodata true series dates).1 = dates.map (fun d : Int => Fold.shortOf (some (curve a b waves d))) ∧
      (h.onrt = true → (harmonic fit h nodata true series dates).2 =
        (series.filter fun o => decide (h.fitMax < o.1)).map fun o =>
          if o.2 = nodata then .ok nodata else Fold.shortOf (some ((o.2 : ℝ) - curve a b waves o.1))) := by
  have hcn : nCoef h = 1 + (if h.trend then 1 else 0) + 2 * h.modes := by
    obtain ⟨tr, m, lo, hi, on⟩ := h
    simp only at h1 h3
    interval_cases m <;> cases tr <;> rfl
  have hfit : ¬ (fitted h nodata series).length < nCoef h := by rw [fitted_eq, hcn]; omega
  obtain ⟨a, b, waves, hw, hb, hc⟩ := row_curve h h1 h3 (coefs fit h nodata series) (hlen _ _)
  have hmis : ∀ (l : List (Int × Int)) (c : List ℝ), misfit (l.map fun o => row h o.1) (l.map fun o => (o.2 : ℝ)) c =
      l.map fun o => (o.2 : ℝ) - dot (row h o.1) c := by
    intro l c
    induction l with
    | nil => rfl
    | cons o l ih => simp only [misfit, List.map_cons, List.zipWith_cons_cons] at ih ⊢; rw [ih]
  have haf : after h series = series.filter fun o => decide (h.fitMax < o.1) := by
    unfold after
    refine List.filter_congr fun o _ => ?_
    by_cases hh : o.1 ≤ h.fitMax
    · simp [hh]
    · simp [hh, show h.fitMax < o.1 by omega]
  refine ⟨a, b, waves, hw, hb, ?_, ?_, ?_⟩
  · intro a' b' waves' hw' hb'
    obtain ⟨hl', hc'⟩ := curve_row h h1 h3 a' b' waves' hw' hb'
    have := hmin ((fitted h nodata series).map fun o => row h o.1) ((fitted h nodata series).map fun o => (o.2 : ℝ)) _ hl'
    rw [hmis, hmis] at this
    rw [← fitted_eq]
    have e1 : ((fitted h nodata series).map fun o => (o.2 : ℝ) - curve a b waves o.1) =
        (fitted h nodata series).map fun o => (o.2 : ℝ) - dot (row h o.1) (coefs fit h nodata series) :=
      List.map_congr_left fun o _ => by rw [hc]
    have e2 : ((fitted h nodata series).map fun o => (o.2 : ℝ) - curve a' b' waves' o.1) =
        (fitted h nodata series).map fun o => (o.2 : ℝ) - dot (row h o.1) (flatC h.trend a' b' waves') :=
      List.map_congr_left fun o _ => by rw [hc']
    rw [e1, e2]
    exact this
  · simp only [harmonic, Bool.not_true, Bool.false_eq_true, if_false, if_neg hfit]
    exact List.map_congr_left fun d _ => by rw [hc]
  · intro hon
    simp only [harmonic, Bool.not_true, Bool.false_eq_true, if_false, if_neg hfit, hon, if_true, haf]
    exact List.map_congr_left fun o _ => by simp only [residual]; rw [hc]

/-- C206: outside of the processing mask, and where there are fewer valid observations in the fitting
period than coefficients, the interpolated series is nodata. -/
theorem c206_nodata (fit : List (List ℝ) → List ℝ → List ℝ) (h : Harm) (nodata : Int) (mask : Bool)
    (series : List (Int × Int)) (dates : List Int) (h1 : 1 ≤ h.modes) (h3 : h.modes ≤ 3)
    (hn : mask = false ∨ (series.filter fun o => decide (Usable nodata h.fitMin h.fitMax o)).length <
      1 + (if h.trend then 1 else 0) + 2 * h.modes) :
    (harmonic fit h nodata mask series dates).1 = dates.map fun _ => Out.ok nodata := by
  have hcn : nCoef h = 1 + (if h.trend then 1 else 0) + 2 * h.modes := by
    obtain ⟨tr, m, lo, hi, on⟩ := h
    simp only at h1 h3
    interval_cases m <;> cases tr <;> rfl
  rw [← fitted_eq, ← hcn] at hn
  cases mask with
  | false => simp [harmonic]
  | true => simp [harmonic, hn.resolve_left (by simp)]

/-- C206, violated: in the same pixels every near-real-time value is 0, as if the observation agreed
with the model, instead of nodata: outside of the processing mask, and where no model could be fitted,
even at dates without a valid observation. -/
theorem c206_nrt_violated (fit : List (List ℝ) → List ℝ → List ℝ) (h : Harm) (nodata : Int) (mask : Bool)
    (series : List (Int × Int)) (dates : List Int) (h1 : 1 ≤ h.modes) (h3 : h.modes ≤ 3) (hon : h.onrt = true)
    (hn : mask = false ∨ (series.filter fun o => decide (Usable nodata h.fitMin h.fitMax o)).length <
      1 + (if h.trend then 1 else 0) + 2 * h.modes) :
    (harmonic fit h nodata mask series dates).2 =
      (series.filter fun o => decide (h.fitMax < o.1)).map fun _ => Out.ok 0 := by
  have hcn : nCoef h = 1 + (if h.trend then 1 else 0) + 2 * h.modes := by
    obtain ⟨tr, m, lo, hi, on⟩ := h
    simp only at h1 h3
    interval_cases m <;> cases tr <;> rfl
  have haf : after h series = series.filter fun o => decide (h.fitMax < o.1) := by
    unfold after
    refine List.filter_congr fun o _ => ?_
    by_cases hh : o.1 ≤ h.fitMax
    · simp [hh]
    · simp [hh, show h.fitMax < o.1 by omega]
  rw [← fitted_eq, ← hcn] at hn
  rw [← haf]
  cases mask with
  | false => simp [harmonic, hon]
  | true => simp only [harmonic, hon, hn.resolve_left (by simp), Bool.not_true, Bool.false_eq_true, if_false, if_true]

theorem row_periodic (h : Harm) (ht : h.trend = false) (ce n : Int) : row h (ce + 365 * n) = row h ce := by
  have hw : ∀ k : Nat, wave (2 * (k : ℝ)) (ce + 365 * n) = wave (2 * (k : ℝ)) ce := by
    intro k
    have e : 2 * (k : ℝ) * Real.pi / 365 * ((ce + 365 * n : Int) : ℝ) =
        2 * (k : ℝ) * Real.pi / 365 * (ce : ℝ) + (((k : Int) * n : Int) : ℝ) * (2 * Real.pi) := by
      push_cast; ring
    unfold wave
    rw [e, Real.cos_add_int_mul_two_pi, Real.sin_add_int_mul_two_pi]
  have h2 := hw 1
  have h4 := hw 2
  have h6 := hw 3
  norm_num at h2 h4 h6
  simp only [row, ht, h2, h4, h6, Bool.false_eq_true, if_false]

/-- C206: without trend, the interpolated series repeats itself every year (of 365 days), for every
pixel and every regression. -/
theorem c206_periodic (fit : List (List ℝ) → List ℝ → List ℝ) (h : Harm) (nodata : Int) (mask : Bool)
    (series : List (Int × Int)) (dates : List Int) (ht : h.trend = false) (i j : Nat) (d n : Int)
    (hi : dates[i]? = some d) (hj : dates[j]? = some (d + 365 * n)) :
    (harmonic fit h nodata mask series dates).1[i]? = (harmonic fit h nodata mask series dates).1[j]? := by
  unfold harmonic
  dsimp only
  split
  · rw [List.getElem?_map, List.getElem?_map, hi, hj]; rfl
  · split
    · rw [List.getElem?_map, List.getElem?_map, hi, hj]; rfl
    · simp [hi, hj, row_periodic h ht]

/-- Hypotheses of the theorems about missing models met: one mode, two observations, of which one is
after the fitting period. -/
example : (([(10, 500), (40, 700)] : List (Int × Int)).filter fun o => decide (Usable (-9999) 0 20 o)).length < 1 + 0 + 2 * 1 := by
  decide

/-- Hypotheses of `c206_fit` met: with a constant measure every regression minimises it, and three
observations are enough for one mode without trend. -/
example : (1 + 0 + 2 * 1) ≤ (([(10, 500), (40, 700), (80, 20), (90, -9999)] : List (Int × Int)).filter
    fun o => decide (Usable (-9999) 0 100 o)).length := by
  decide

end Verif.Tsa
